import Verif.SpecPrinted
import Verif.Props.TextCut
import Verif.Props.Print
import Verif.Props.Frames

/-!
# C105: what documents of programs print
-/

set_option linter.unusedSectionVars false

namespace Docx

section
variable [GoEnv] [ImgEnv] [HashEnv]

theorem headerCells_join : ∀ n, headerCells n = String.join (List.replicate n " :----: |")
  | 0 => rfl
  | n + 1 => by rw [headerCells, headerCells_join n, List.replicate_succ, String.join_cons]

/-- The pictures of the paragraph know that they belong to `d`. -/
def AtHome (d : DocId) (p : Para) : Prop := ∀ r, .run r ∈ p.children → ∀ dr, .drawing dr ∈ r.children →
  (∀ i, dr.inl = some i → isPic i.graphic = true → i.file = some d) ∧
    ∀ a, dr.anchor = some a → isPic a.graphic = true → a.file = some d

theorem drop_media {t : String} (h : "media/".toList.isPrefixOf t.toList = true) :
    dropBytes 6 t.toList = some (some (t.toList.drop 6)) := by
  obtain ⟨u, hu⟩ := List.isPrefixOf_iff_prefix.1 h
  rw [← hu, show "media/".toList = ['m', 'e', 'd', 'i', 'a', '/'] from rfl]
  simp [dropBytes, Char.utf8Size]

theorem graphic_prints {w : World} {d : DocId} {f : Doc} (hf : w[d]? = some f) {b : Bool} {g : Option Graphic}
    {file : Option DocId} (docPr : Option IdName) (tag : String) (htag : tag = if b then "inln" else "anch")
    (hk : viewGraphic f.pictureData b g ≠ .other) (hp : isPic g = true → file = some d) :
    ∃ gr gd t, g = some gr ∧ gr.data = some gd ∧ gd.str w tag file docPr = .ok t ∧
      BitPrints (viewGraphic f.pictureData b g) t := by
  subst htag
  rcases g with _ | ⟨xa, _ | ⟨uri, _ | pic, _ | sh, _ | ca, _ | gr⟩⟩ <;>
    first
    | exact absurd rfl hk
    | skip
  · cases hs : sh.spPr with
    | none => simp [viewGraphic, hs] at hk
    | some sp =>
      refine ⟨_, _, _, rfl, rfl, rfl, ?_⟩
      simp only [viewGraphic, hs]
      exact .shape _ _ _ _ _
  · obtain ⟨xp, nv, bf, sp⟩ := pic
    cases bf with
    | none => exact absurd rfl hk
    | some bf =>
      obtain rfl := hp rfl
      simp only [viewGraphic] at hk ⊢
      cases hd : f.pictureData bf.blip.embed with
      | none => rw [hd] at hk; exact absurd rfl hk
      | some data =>
        dsimp only
        have hl : ∃ l, picLabel docPr ⟨xp, nv, some bf, sp⟩ = .ok l := by
          unfold picLabel
          cases docPr with
          | some x => exact ⟨_, rfl⟩
          | none => cases nv <;> exact ⟨_, rfl⟩
        obtain ⟨l, hl⟩ := hl
        have ht : picTarget w (some d) ⟨xp, nv, some bf, sp⟩ = .ok (HashEnv.md5hex data) := by
          unfold picTarget
          simp only [Option.bind_some, hf]
          unfold Doc.pictureData at hd
          cases ht : f.referTarget bf.blip.embed with
          | none => rw [ht] at hd; cases hd
          | some tg =>
            rw [ht] at hd
            dsimp only at hd ⊢
            by_cases hm : "media/".toList.isPrefixOf tg.toList = true
            · rw [if_pos hm] at hd
              unfold mediaOfTarget
              rw [drop_media hm]
              dsimp only
              split at hd
              · rename_i m hm
                rw [hm]
                simp only [Option.some.injEq] at hd
                simp [hd]
              · cases hd
            · rw [if_neg hm] at hd; cases hd
        refine ⟨_, _, _, rfl, rfl, ?_, .picture b data l⟩
        simp only [GraphicData.str, hl, ht]
        rfl

theorem piece_prints {w : World} {d : DocId} {f : Doc} (hf : w[d]? = some f) {c : RChild}
    (hk : viewPiece f.pictureData c ≠ .other)
    (hp : ∀ dr, c = .drawing dr → (∀ i, dr.inl = some i → isPic i.graphic = true → i.file = some d) ∧
      ∀ a, dr.anchor = some a → isPic a.graphic = true → a.file = some d) :
    ∃ t, c.str w = .ok t ∧ BitPrints (viewPiece f.pictureData c) t := by
  cases c with
  | text t => exact ⟨_, rfl, .words _ rfl⟩
  | tab t => exact ⟨_, rfl, .words .tab rfl⟩
  | br b =>
    refine ⟨_, rfl, ?_⟩
    simp only [viewPiece] at hk ⊢
    split
    · exact .words .newline rfl
    · rename_i e
      rw [if_neg e] at hk
      split
      · exact .words .pageBreak rfl
      · rename_i e
        rw [if_neg e] at hk
        exact absurd rfl hk
  | drawing dr =>
    have hd := hp dr rfl
    rcases dr with ⟨_ | i, _ | a⟩
    · exact absurd rfl hk
    · obtain ⟨gr, gd, t, h1, h2, h3, h4⟩ := graphic_prints hf a.docPr "anch" rfl hk (hd.2 a rfl)
      refine ⟨t, ?_, h4⟩
      simp only [RChild.str, Anchor.str, h1, h2, h3]
    · obtain ⟨gr, gd, t, h1, h2, h3, h4⟩ := graphic_prints hf i.docPr "inln" rfl hk (hd.1 i rfl)
      refine ⟨t, ?_, h4⟩
      simp only [RChild.str, Inline.str, h1, h2, h3]
    · exact absurd rfl hk

theorem bitsPrint_append {as bs : List Bit} {s t : String} (h1 : BitsPrint as s) (h2 : BitsPrint bs t) :
    BitsPrint (as ++ bs) (s ++ t) := by
  induction h1 with
  | nil => simpa using h2
  | cons h _ ih => rw [List.cons_append, String.append_assoc]; exact .cons h ih

theorem pieces_print {w : World} {d : DocId} {f : Doc} (hf : w[d]? = some f) : ∀ {cs : List RChild},
    Bit.other ∉ cs.map (viewPiece f.pictureData) →
    (∀ dr, .drawing dr ∈ cs → (∀ i, dr.inl = some i → isPic i.graphic = true → i.file = some d) ∧
      ∀ a, dr.anchor = some a → isPic a.graphic = true → a.file = some d) →
    ∃ t, rchildrenStr w cs = .ok t ∧ BitsPrint (cs.map (viewPiece f.pictureData)) t
  | [], _, _ => ⟨_, rfl, .nil⟩
  | c :: cs, hk, hp => by
    simp only [List.map_cons, List.mem_cons, not_or] at hk
    obtain ⟨s, h1, h2⟩ := piece_prints hf (Ne.symm hk.1) (fun dr e => hp dr (by simp [e]))
    obtain ⟨t, h3, h4⟩ := pieces_print hf hk.2 (fun dr h => hp dr (by simp [h]))
    refine ⟨s ++ t, ?_, .cons h2 h4⟩
    rw [rchildrenStr, h1, h3]
    rfl

/-- A paragraph prints what it shows. -/
theorem para_prints {w : World} {d : DocId} {f : Doc} (hf : w[d]? = some f) {p : Para} (hp : p.file = some d)
    (hk : Bit.other ∉ viewPara f.referTarget f.pictureData p) (hh : AtHome d p) :
    ∃ t, p.str w = .ok t ∧ BitsPrint (viewPara f.referTarget f.pictureData p) t := by
  unfold Para.str viewPara AtHome at *
  rw [hp]
  generalize p.children = cs at *
  induction cs with
  | nil => exact ⟨_, rfl, .nil⟩
  | cons c cs ih =>
    rw [List.flatMap_cons, List.mem_append, not_or] at hk
    obtain ⟨t, h3, h4⟩ := ih hk.2 (fun r hr => hh r (by simp [hr]))
    have h1 := hk.1
    have : ∃ s, c.str w (some d) = .ok s ∧ BitsPrint (viewChild f.referTarget f.pictureData c) s := by
      cases c with
      | rpr x => exact absurd (by simp [viewChild]) h1
      | run r =>
        simp only [viewChild] at h1 ⊢
        by_cases e : r.instr = ""
        · rw [if_pos e] at h1 ⊢
          exact pieces_print hf h1 (hh r (by simp))
        · rw [if_neg e] at h1
          simp at h1
      | link k =>
        simp only [viewChild] at h1 ⊢
        split at h1
        · rename_i tg hr hc
          refine ⟨"[" ++ k.run.instr ++ "](" ++ tg ++ ")", ?_, ?_⟩
          · simp [PChild.str, hf, show f.referTarget k.id = some tg from hr]
          · have := BitsPrint.cons (.words (.link k.run.instr tg) rfl) .nil
            simpa [Bit.words] using this
        · simp at h1
    obtain ⟨s, h1, h2⟩ := this
    refine ⟨s ++ t, ?_, bitsPrint_append h2 h4⟩
    rw [pchildrenStr, h1, h3]
    rfl

theorem cell_prints {w : World} {d : DocId} {f : Doc} (hf : w[d]? = some f) {c : Cell}
    (hp : ∀ p ∈ c.paras, p.file = some d)
    (hk : ∀ q ∈ c.paras.map (viewPara f.referTarget f.pictureData), Bit.other ∉ q)
    (hn : ∀ p, c.paras.head? = some p → AtHome d p) :
    ∃ t, c.str w = .ok t ∧ CellPrints (c.paras.map (viewPara f.referTarget f.pictureData)) t := by
  unfold Cell.str
  cases hc : c.paras with
  | nil => exact ⟨_, rfl, .noParagraph⟩
  | cons p ps =>
    rw [hc] at hk hn hp
    simp only [List.map_cons]
    by_cases e : p.children = []
    · rw [if_pos e]
      refine ⟨_, rfl, ?_⟩
      have : viewPara f.referTarget f.pictureData p = [] := by simp [viewPara, e]
      rw [this]
      exact .nothing _
    · obtain ⟨t, h1, h2⟩ := para_prints hf (hp p (by simp)) (hk _ (by simp)) (hn p rfl)
      rw [if_neg e, h1]
      exact ⟨_, rfl, .shown _ h2⟩

theorem cells_print {w : World} {d : DocId} {f : Doc} (hf : w[d]? = some f) : ∀ {cs : List Cell},
    (∀ c ∈ cs, ∀ p ∈ c.paras, p.file = some d) →
    (∀ c ∈ cs, ∀ q ∈ c.paras.map (viewPara f.referTarget f.pictureData), Bit.other ∉ q) →
    (∀ c ∈ cs, ∀ p, c.paras.head? = some p → AtHome d p) →
    ∃ t, cellsStr w cs = .ok t ∧
      CellsPrint (cs.map fun c => c.paras.map (viewPara f.referTarget f.pictureData)) t
  | [], _, _, _ => ⟨_, rfl, .nil⟩
  | c :: cs, hp, hk, hn => by
    obtain ⟨t, h1, h2⟩ := cell_prints hf (hp c (by simp)) (hk c (by simp)) (hn c (by simp))
    obtain ⟨u, h3, h4⟩ := cells_print hf (cs := cs) (fun c h => hp c (by simp [h])) (fun c h => hk c (by simp [h]))
      (fun c h => hn c (by simp [h]))
    refine ⟨t ++ u, ?_, .cons h2 h4⟩
    rw [cellsStr, h1, h3]
    rfl

theorem rows_print {w : World} {d : DocId} {f : Doc} (hf : w[d]? = some f) : ∀ {rs : List Row},
    (∀ r ∈ rs, ∀ c ∈ r.cells, ∀ p ∈ c.paras, p.file = some d) →
    (∀ r ∈ rs, ∀ c ∈ r.cells, ∀ q ∈ c.paras.map (viewPara f.referTarget f.pictureData), Bit.other ∉ q) →
    (∀ r ∈ rs, ∀ c ∈ r.cells, ∀ p, c.paras.head? = some p → AtHome d p) →
    ∃ t, rowsStr w rs = .ok t ∧
      RowsPrint (rs.map fun r => r.cells.map fun c => c.paras.map (viewPara f.referTarget f.pictureData)) t
  | [], _, _, _ => ⟨_, rfl, .nil⟩
  | r :: rs, hp, hk, hn => by
    obtain ⟨t, h1, h2⟩ := cells_print hf (hp r (by simp)) (hk r (by simp)) (hn r (by simp))
    obtain ⟨u, h3, h4⟩ := rows_print hf (rs := rs) (fun c h => hp c (by simp [h])) (fun c h => hk c (by simp [h]))
      (fun c h => hn c (by simp [h]))
    refine ⟨"\n|" ++ t ++ u, ?_, .cons h2 h4⟩
    rw [rowsStr, h1, h3]
    rfl

/-- The same for the paragraphs of an item that are printed -/
def HomeItem (d : DocId) : BItem → Prop
  | .para p => AtHome d p
  | .table t => ∀ r ∈ t.rows, ∀ c ∈ r.cells, ∀ p, c.paras.head? = some p → AtHome d p
  | .sect _ => True

theorem item_prints {w : World} {d : DocId} {f : Doc} (hf : w[d]? = some f) {x : BItem} (ho : OwnItem d x)
    (hk : KnownBlock (viewItem f.referTarget f.pictureData x)) (hn : HomeItem d x) :
    ∃ t, x.printed w = .ok t ∧ Prints (viewItem f.referTarget f.pictureData x) t := by
  cases x with
  | para p =>
    obtain ⟨t, h1, h2⟩ := para_prints hf ho.1 hk hn
    exact ⟨t, h1, .para h2⟩
  | table tb =>
    simp only [viewItem, KnownBlock, List.mem_map, forall_exists_index, and_imp, forall_apply_eq_imp_iff₂] at hk ⊢
    simp only [BItem.printed, Table.str]
    have key := rows_print hf (rs := tb.rows) (fun r hr c hc p hp => ((ho r hr c hc).2 p hp).1)
      (fun r hr c hc q hq => by
        obtain ⟨p, hp, rfl⟩ := List.mem_map.1 hq
        exact hk r hr c hc p hp) hn
    revert key
    cases hr : tb.rows with
    | nil => intro _; exact ⟨_, rfl, .noRow⟩
    | cons r rs =>
      intro key
      obtain ⟨t, h1, h2⟩ := key
      by_cases e : r.cells.length = 0
      · dsimp only
        rw [if_pos e]
        refine ⟨_, rfl, ?_⟩
        rw [List.map_cons, List.length_eq_zero_iff.1 e]
        exact .noCell _
      · dsimp only
        rw [if_neg e, h1]
        refine ⟨_, rfl, ?_⟩
        rw [headerCells_join]
        have := Prints.table (r.cells.map fun c => c.paras.map (viewPara f.referTarget f.pictureData))
          (rs.map fun r => r.cells.map fun c => c.paras.map (viewPara f.referTarget f.pictureData)) t
          (by intro h; exact e (by simpa using h)) (by simpa using h2)
        rw [List.length_map] at this
        exact this
  | sect s =>
    refine ⟨_, rfl, ?_⟩
    revert hk
    unfold viewItem
    split
    · simp_all
    · simp_all
    · intro _; exact .page _ _
    · intro h; exact h.elim

/-- A graphic that is a picture and is known shows a picture. -/
theorem isPic_view {M : String → Option Bytes} {b : Bool} {g : Option Graphic} (hp : isPic g = true)
    (h : viewGraphic M b g ≠ .other) : ∃ data, viewGraphic M b g = .picture b data := by
  rcases viewGraphic_cases h with ⟨_, _, _, _, data, _, _, _, e⟩ | ⟨_, _, _, e, _⟩
  · exact ⟨data, e⟩
  · rw [hp] at e; cases e

theorem home_noPicture {R : String → Option String} {M : String → Option Bytes} {d : DocId} {p : Para}
    (hk : Bit.other ∉ viewPara R M p) (hn : ∀ inline data, .picture inline data ∉ viewPara R M p) : AtHome d p := by
  intro r hr dr hd
  have hm : ∀ x ∈ r.children, viewPiece M x ∈ viewPara R M p := by
    intro x hx
    refine List.mem_flatMap.2 ⟨_, hr, ?_⟩
    have h1 : ∀ b ∈ viewChild R M (.run r), b ≠ .other := fun b hb e => hk (List.mem_flatMap.2 ⟨_, hr, e ▸ hb⟩)
    simp only [viewChild] at h1 ⊢
    by_cases e : r.instr = ""
    · rw [if_pos e]; exact List.mem_map_of_mem hx
    · rw [if_neg e] at h1; exact absurd rfl (h1 .other (by simp))
  have h1 := hm _ hd
  have h2 : viewPiece M (.drawing dr) ≠ .other := fun e => hk (e ▸ h1)
  rcases dr with ⟨_ | i, _ | a⟩
  · exact absurd rfl h2
  · refine ⟨fun i hi => (by cases hi), fun a' ha hp => ?_⟩
    obtain rfl := Option.some.inj ha
    obtain ⟨data, e⟩ := isPic_view hp h2
    exact absurd (e ▸ h1) (hn false data)
  · refine ⟨fun i' hi hp => ?_, fun a ha => (by cases ha)⟩
    obtain rfl := Option.some.inj hi
    obtain ⟨data, e⟩ := isPic_view hp h2
    exact absurd (e ▸ h1) (hn true data)
  · exact absurd rfl h2

theorem homeItem_noPicture {R : String → Option String} {M : String → Option Bytes} {d : DocId} {x : BItem}
    (hk : KnownBlock (viewItem R M x)) (hn : (viewItem R M x).Pictureless) : HomeItem d x := by
  cases x with
  | para p => exact home_noPicture hk hn
  | sect s => trivial
  | table t =>
    intro r hr c hc p hp
    have hr' : (r.cells.map fun c => c.paras.map (viewPara R M)) ∈ t.rows.map fun r => r.cells.map fun c => c.paras.map (viewPara R M) :=
      List.mem_map.2 ⟨r, hr, rfl⟩
    have hc' : c.paras.map (viewPara R M) ∈ r.cells.map fun c => c.paras.map (viewPara R M) := List.mem_map.2 ⟨c, hc, rfl⟩
    exact home_noPicture (hk _ hr' _ hc' _ (List.mem_map_of_mem (List.mem_of_mem_head? hp)))
      (hn _ hr' _ hc' _ (by rw [List.head?_map, hp]; rfl))

/-- **C105.** The documents of a program, built, opened, joined and cut as in C99.  `String` of a paragraph without
pictures, at any place of the body, is what the calls put there; `String` of a table is a line for the columns and one
line per row, with the first paragraph of each cell. -/
theorem C105_printed (w : World) (s : List (List Block)) (h : Makes w s) (d : DocId) (f : Doc) (bs : List Block)
    (hd : w[d]? = some f) (hs : s[d]? = some bs) (i : Nat) (b : Block) (hb : bs[i]? = some b) (hn : b.Pictureless) :
    ∃ x t, f.items[i]? = some x ∧ x.printed w = .ok t ∧ Prints b t := by
  obtain ⟨_, _, _, h4⟩ := makes_program h
  have hu := h4 d f bs hd hs
  have e := hu.shows
  rw [← e, Doc.shows, List.getElem?_map] at hb
  obtain ⟨x, hx, rfl⟩ := Option.map_eq_some_iff.1 hb
  have hm := List.mem_of_getElem? hx
  have hk : KnownBlock (viewItem f.referTarget f.pictureData x) :=
    hu.known _ (e ▸ List.mem_map_of_mem (f := viewItem f.referTarget f.pictureData) hm)
  obtain ⟨t, h1, h2⟩ := item_prints hd (hu.own x hm) hk (homeItem_noPicture hk hn)
  exact ⟨x, t, hx, h1, h2⟩

theorem clean_append (a b : String) : clean (a ++ b) = clean a ++ clean b := by
  apply String.toList_inj.1
  simp [clean]

theorem cleanBit_words : ∀ b : Bit, (cleanBit b).words = clean b.words
  | .text s => rfl
  | .tab => by decide
  | .newline => by decide
  | .pageBreak => by decide
  | .link l t => by
    simp only [cleanBit, Bit.words, clean_append]
    rfl
  | .picture _ _ => rfl
  | .shape _ _ _ _ => rfl
  | .other => by decide

theorem cleanBits_words (bits : List Bit) : bitsWords (bits.map cleanBit) = clean (bitsWords bits) := by
  unfold bitsWords
  induction bits with
  | nil => rfl
  | cons b bs ih => simp only [List.map_cons, String.join_cons, clean_append, ih, cleanBit_words]

theorem cleanBit_drawn : ∀ b : Bit, (cleanBit b).drawn = b.drawn
  | .text _ => rfl
  | .tab => rfl
  | .newline => rfl
  | .pageBreak => rfl
  | .link _ _ => rfl
  | .picture _ _ => rfl
  | .shape _ _ _ _ => rfl
  | .other => rfl

/-- The text of a paragraph without drawings -/
theorem bitsPrint_words {bits : List Bit} {t : String} (h : BitsPrint bits t) (hn : ∀ b ∈ bits, b.drawn = false) :
    t = bitsWords bits := by
  induction h with
  | nil => rfl
  | @cons b bs s t h _ ih =>
    have e := ih fun b hb => hn b (by simp [hb])
    have hd := hn b (by simp)
    rw [e]
    show _ = String.join (_ :: _)
    rw [String.join_cons]
    congr 1
    cases h with
    | words b _ => rfl
    | picture => cases hd
    | shape => cases hd

theorem undrawn_clean {bits : List Bit} (h : ∀ b ∈ bits, b.drawn = false) :
    ∀ b ∈ bits.map cleanBit, b.drawn = false := by
  intro b hb
  obtain ⟨a, ha, rfl⟩ := List.mem_map.1 hb
  rw [cleanBit_drawn]
  exact h a ha

theorem kept_atHome {me : DocId} {p : Para} (h : keptPara (some me) p) : AtHome me p := by
  obtain ⟨pr, cs, f⟩ := p
  rw [keptPara] at h
  obtain ⟨_, h, _⟩ := h
  show ∀ r, .run r ∈ cs → _
  induction cs with
  | nil => simp
  | cons c cs ih =>
    rw [keptPChildren] at h
    intro r hr
    rcases List.mem_cons.1 hr with e | hr
    · subst e
      obtain ⟨sp, rp, ins, rc⟩ := r
      have h1 := h.1
      rw [keptPChild, keptRun] at h1
      show ∀ dr, .drawing dr ∈ rc → _
      clear ih h hr
      induction rc with
      | nil => simp
      | cons y ys ih =>
        rw [keptRChildren] at h1
        intro d hz
        rcases List.mem_cons.1 hz with e | hz
        · subst e
          obtain ⟨i, a⟩ := d
          have h2 := h1.1
          rw [keptRChild, keptDrawing] at h2
          refine ⟨fun i' hi _ => ?_, fun a' ha _ => ?_⟩
          · have hi : i = some i' := hi
            subst hi
            have := h2.1
            rw [keptInlineO] at this
            cases i'
            rw [keptInline] at this
            exact this.2
          · have ha : a = some a' := ha
            subst ha
            have := h2.2
            rw [keptAnchorO] at this
            cases a'
            rw [keptAnchor] at this
            exact this.2
        · exact ih h1.2 d hz
    · exact ih h.2 r hr

theorem kept_homeItem {me : DocId} {x : BItem} (h : keptItem (some me) x) : HomeItem me x := by
  cases x with
  | para p => exact kept_atHome h
  | sect s => trivial
  | table t => exact fun r hr c hc p hp => kept_atHome ((h.2 r hr c hc).1 p (List.mem_of_mem_head? hp))

/-- **C105, opened documents.** The paragraphs and tables of an opened file that shows known pieces only are printed
as what they show, with their pictures. -/
theorem C105_opened (w : World) (me : DocId) (a : Archive) (g : Doc) (h : unpack me a = (g, none))
    (hw : w[me]? = some g) (hk : ∀ b ∈ g.shows, KnownBlock b) (i : Nat) (x : BItem) (hx : g.items[i]? = some x) :
    ∃ b t, g.shows[i]? = some b ∧ x.printed w = .ok t ∧ Prints b t := by
  have hm := List.mem_of_getElem? hx
  have hkept := (unpack_clean h).kept x hm
  obtain ⟨t, h1, h2⟩ := item_prints hw (kept_ownItem hkept) (hk _ (List.mem_map_of_mem hm)) (kept_homeItem hkept)
  exact ⟨_, t, by rw [Doc.shows, List.getElem?_map, hx]; rfl, h1, h2⟩

/-- **C105, in the file.** A document of the program is saved and opened again.  All its paragraphs and tables can be
printed, and print what the program put there, with the characters that XML cannot carry replaced: also those with
pictures, which cannot be printed before (C31). -/
theorem C105_file (w : World) (s : List (List Block)) (h : Makes w s) (d : DocId) (f : Doc) (bs : List Block)
    (hd : w[d]? = some f) (hs : s[d]? = some bs) (hx : ∀ m ∈ f.media, xmlText m.name)
    (ht : ∀ n ∈ f.tmpfslst, isMediaName n = false) (out : Saved) (ho : Saves f out none) (me : DocId) :
    ∃ g, unpack me (reread out) = (g, none) ∧ g.items.length = bs.length ∧
      ∀ (w1 : World) (i : Nat) (y : BItem), w1[me]? = some g → g.items[i]? = some y →
        ∃ b t, bs[i]? = some b ∧ y.printed w1 = .ok t ∧ Prints (cleanBlock b) t := by
  obtain ⟨g, g1, g2⟩ := C99_file w s h d f bs hd hs hx ht out ho me
  obtain ⟨_, _, _, h4⟩ := makes_program h
  have hu := h4 d f bs hd hs
  refine ⟨g, g1, ?_, fun w1 i y hw hy => ?_⟩
  · have := congrArg List.length g2
    simpa [Doc.shows] using this
  · have hk : ∀ b ∈ g.shows, KnownBlock b := by
      rw [g2]
      intro b hb
      obtain ⟨a, ha, rfl⟩ := List.mem_map.1 hb
      exact known_clean (hu.known a ha)
    obtain ⟨b, t, b1, b2, b3⟩ := C105_opened w1 me _ g g1 hw hk i y hy
    rw [g2, List.getElem?_map] at b1
    obtain ⟨b0, hb0, rfl⟩ := Option.map_eq_some_iff.1 b1
    exact ⟨b0, t, hb0, b2, b3⟩

/-- **C105, before and after.** A paragraph without pictures and shapes prints the same before and after saving and
opening, with the characters that XML cannot carry replaced. -/
theorem C105_same (w : World) (s : List (List Block)) (h : Makes w s) (d : DocId) (f : Doc) (bs : List Block)
    (hd : w[d]? = some f) (hs : s[d]? = some bs) (hx : ∀ m ∈ f.media, xmlText m.name)
    (ht : ∀ n ∈ f.tmpfslst, isMediaName n = false) (out : Saved) (ho : Saves f out none) (me : DocId)
    (i : Nat) (bits : List Bit) (hb : bs[i]? = some (.para bits)) (hn : ∀ b ∈ bits, b.drawn = false) :
    ∃ g p q, unpack me (reread out) = (g, none) ∧ f.items[i]? = some (.para p) ∧ g.items[i]? = some (.para q) ∧
      p.str w = .ok (bitsWords bits) ∧ ∀ w1 : World, w1[me]? = some g → q.str w1 = .ok (clean (bitsWords bits)) := by
  obtain ⟨g, g1, g2, g3⟩ := C105_file w s h d f bs hd hs hx ht out ho me
  obtain ⟨g', g1', g4⟩ := C99_file w s h d f bs hd hs hx ht out ho me
  obtain rfl : g = g' := congrArg Prod.fst (g1.symm.trans g1')
  obtain ⟨_, _, _, h4⟩ := makes_program h
  have hu := h4 d f bs hd hs
  have isPara : ∀ {f : Doc} {bits : List Bit}, f.shows[i]? = some (.para bits) → ∃ p, f.items[i]? = some (.para p) := by
    intro f bits h
    rw [Doc.shows, List.getElem?_map] at h
    obtain ⟨x, hx, e⟩ := Option.map_eq_some_iff.1 h
    cases x with
    | para p => exact ⟨p, hx⟩
    | table t => cases e
    | sect c =>
      simp only [viewItem] at e
      split at e <;> simp_all
  obtain ⟨p, hp⟩ := isPara (hu.shows ▸ hb)
  obtain ⟨q, hq⟩ := isPara (f := g) (bits := bits.map cleanBit) (by rw [g4, List.getElem?_map, hb]; rfl)
  refine ⟨g, p, q, g1, hp, hq, ?_, fun w1 hw => ?_⟩
  · obtain ⟨x, t, x1, x2, x3⟩ := C105_printed w s h d f bs hd hs i _ hb (fun inline data hm => by cases hn _ hm)
    obtain rfl := Option.some.inj (hp.symm.trans x1)
    cases x3 with
    | para hpr => rw [← bitsPrint_words hpr hn]; exact x2
  · obtain ⟨b, t, b1, b2, b3⟩ := g3 w1 i _ hw hq
    obtain rfl := Option.some.inj (hb.symm.trans b1)
    cases b3 with
    | para hpr => rw [← cleanBits_words, ← bitsPrint_words hpr (undrawn_clean hn)]; exact b2

/-- **C105, not before.** A paragraph to which a picture was just added cannot be printed, whatever else is in it and
whatever documents there are. -/
theorem C105_not_before (f f' : Doc) (p p' : Para) (r : Run) (pic : Bytes)
    (h : p.addInlineDrawing f pic = (f', p', .ok r) ∨ p.addAnchorDrawing f pic = (f', p', .ok r)) (w : World) :
    ¬∃ t, p'.str w = .ok t := by
  rw [C31_paragraph_iff]
  rintro ⟨hp, -⟩
  rcases h with h | h
  · unfold Para.addInlineDrawing at h
    split at h
    · rename_i idn id rid x y _
      simp only [Prod.mk.injEq, Res.ok.injEq] at h
      obtain ⟨_, rfl, _⟩ := h
      have := hp { inl := some (mkInlinePic idn id rid x y) }
        ((mem_drawings _ _).2 ⟨drawingRun { inl := some (mkInlinePic idn id rid x y) }, by simp [Para.addRun], by simp [drawingRun]⟩)
      obtain ⟨g, gd, e1, e2, e3⟩ := this
      obtain rfl := Option.some.inj e1
      obtain rfl := Option.some.inj e2
      obtain ⟨i, _, hi, _⟩ := ((e3 _ rfl).2 _ rfl).1
      cases hi
    · simp at h
    · simp at h
  · unfold Para.addAnchorDrawing at h
    split at h
    · rename_i idn id rid x y _
      simp only [Prod.mk.injEq, Res.ok.injEq] at h
      obtain ⟨_, rfl, _⟩ := h
      have := hp { anchor := some (mkAnchorPic idn id rid x y) }
        ((mem_drawings _ _).2 ⟨drawingRun { anchor := some (mkAnchorPic idn id rid x y) }, by simp [Para.addRun], by simp [drawingRun]⟩)
      obtain ⟨i, _, hi, _⟩ := ((this _ _ _ _ rfl rfl rfl rfl).2 _ rfl).1
      cases hi
    · simp at h
    · simp at h

end

/-! ## Case: a heading, a link, and a table with an empty cell -/

local instance printEnv : GoEnv := ⟨fun _ => none, fun _ => false, fun _ => false⟩
local instance printImg : ImgEnv := ⟨fun _ => none⟩
local instance printHash : HashEnv := ⟨fun b => String.ofList (b.map fun _ => 'x')⟩

def printCalls : List Call :=
  [.paragraph, .text (.body 0) "a\tb\nc", .link (.body 0) "x" "http://x/",
   .table 1 3 0 none, .cellParagraph 1 0 0, .text (.cell 1 0 0 0) "yes", .cellParagraph 1 0 1]

/-- What the items of a body print -/
def printedAll (cs : List Call) : Option (List String) :=
  match run [Doc.new] (cs.map (Call.op 0)) with
  | .ok w => (w[0]?.map Doc.items).map fun items => items.map fun x =>
    match x.printed w with
    | .ok t => t
    | _ => "fails"
  | _ => none

example : result printCalls =
    [.para [.text "a", .tab, .text "b", .newline, .text "c", .link "x" "http://x/"],
     .table [[[[.text "yes"]], [[]], []]]] := by decide +kernel

example : printedAll printCalls = some ["a\tb\nc[x](http://x/)",
    "|  :----: | :----: | :----: |\n| yes |        |        |"] := by decide +kernel

example : Prints (.table [[[[.text "yes"]], [[]], []]])
    "|  :----: | :----: | :----: |\n| yes |        |        |" :=
  .table _ _ "\n| yes |        |        |" (by simp)
    (.cons (t := "") (.cons (t := "        |        |") (.shown (t := "yes") [] (.cons (.words (.text "yes") rfl) .nil))
      (.cons (t := "        |") (.nothing []) (.cons (t := "") .noParagraph .nil))) .nil)

example : ∃ w, Makes w [result printCalls] ∧ ∀ b ∈ result printCalls, b.Pictureless := by
  have key : (match run [Doc.new] (printCalls.map (Call.op 0)) with
    | .ok w => w.map (·.rels.length) == [4]
    | _ => false) = true := by decide +kernel
  split at key
  · rename_i w h1
    have hl : ∀ f ∈ w, f.rels.length < 2 ^ 62 := by
      intro f hf
      have : f.rels.length ∈ [4] := (beq_iff_eq.1 key) ▸ List.mem_map_of_mem hf
      simp at this
      omega
    have hM := makes_calls (.new .start) h1 hl
    refine ⟨w, hM, ?_⟩
    rw [show result printCalls = [.para [.text "a", .tab, .text "b", .newline, .text "c", .link "x" "http://x/"],
      .table [[[[.text "yes"]], [[]], []]]] by decide +kernel]
    intro b hb
    simp only [List.mem_cons, List.not_mem_nil, or_false] at hb
    rcases hb with rfl | rfl
    · simp [Block.Pictureless]
    · simp [Block.Pictureless]
  · cases key

/-- A file with a picture is printed. -/
example : (match unpack 0 framesPackage with
    | (g, none) => decide (g.shows = [.para [.picture false [5, 6]]]) &&
      (g.items.map fun x => match x.printed [g] with | .ok t => t | _ => "fails") == ["![anchim ](xx)"]
    | _ => false) = true := by decide +kernel

/-- The text of a table is not determined by what it shows: an empty text in a cell shows nothing, and changes the
text of the table. -/
theorem C105_empty_text :
    result [.table 1 1 0 none, .cellParagraph 0 0 0] =
      result [.table 1 1 0 none, .cellParagraph 0 0 0, .text (.cell 0 0 0 0) ""] ∧
    printedAll [.table 1 1 0 none, .cellParagraph 0 0 0] = some ["|  :----: |\n|        |"] ∧
    printedAll [.table 1 1 0 none, .cellParagraph 0 0 0, .text (.cell 0 0 0 0) ""] = some ["|  :----: |\n|  |"] := by
  decide +kernel

end Docx
