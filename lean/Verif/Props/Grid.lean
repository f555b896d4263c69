import Verif.SpecGrid
import Verif.Props.Printable

/-!
# C107: tables keep their rows and cells
-/

namespace Docx

section
variable [GoEnv] [ImgEnv]

/-- The numbers of cells of a block that is a table -/
def blockDims : Block → Option (List Nat)
  | .table rows => some (rows.map List.length)
  | _ => none

omit [GoEnv] [ImgEnv] in
theorem tables_shows (f : Doc) : f.tables = f.shows.filterMap blockDims := by
  rw [Doc.shows, List.filterMap_map, Doc.tables]
  congr 1
  funext x
  cases x with
  | para p => rfl
  | table t => simp [cellCounts, viewItem, blockDims, Function.comp_def]
  | sect s =>
    simp only [Function.comp_apply]
    unfold viewItem
    split <;> simp_all [blockDims, cellCounts]

omit [GoEnv] [ImgEnv] in
theorem dims_modify {bs : List Block} {i : Nat} {g : Block → Block} (h : ∀ b, blockDims (g b) = blockDims b) :
    (bs.modify i g).filterMap blockDims = bs.filterMap blockDims := by
  have e : ∀ l : List Block, l.filterMap blockDims = (l.map blockDims).filterMap id := fun l => by
    rw [List.filterMap_map]; rfl
  rw [e, e, map_modify_id h]

omit [GoEnv] [ImgEnv] in
theorem dims_atPlace (l : Loc) (k : List Bit → List Bit) (bs : List Block) :
    (atPlace l k bs).filterMap blockDims = bs.filterMap blockDims := by
  cases l with
  | body i => exact dims_modify fun b => by cases b <;> rfl
  | cell i r c j =>
    refine dims_modify fun b => ?_
    cases b with
    | table t =>
      simp only [blockDims, Option.some.injEq]
      exact map_modify_id fun row => by simp
    | _ => rfl

omit [GoEnv] in
theorem dims_does (c : Call) (bs : List Block) :
    (c.does bs).filterMap blockDims = c.tables (bs.filterMap blockDims) := by
  cases c with
  | paragraph => simp [Call.does, Call.tables, blockDims]
  | cellParagraph i r c =>
    refine dims_modify fun b => ?_
    cases b with
    | table t =>
      simp only [blockDims, Option.some.injEq]
      exact map_modify_id fun row => by simp
    | _ => rfl
  | table rows cols width colors => simp [Call.does, Call.tables, blockDims]
  | tableTwips hs ws width colors => simp [Call.does, Call.tables, blockDims]
  | a3 => simp [Call.does, Call.tables, blockDims]
  | a4 => simp [Call.does, Call.tables, blockDims]
  | picture inline l pic =>
    simp only [Call.does, Call.tables]
    split
    · rfl
    · exact dims_atPlace _ _ _
  | keep names =>
    simp only [Call.does, Call.tables]
    split
    · rename_i h
      rw [List.filterMap_filter]
      congr 1
      funext b
      cases b <;> simp [Block.kind, blockDims, h]
    · rename_i h
      rw [List.filterMap_filter]
      refine List.filterMap_eq_nil_iff.2 fun b _ => ?_
      cases b <;> simp [Block.kind, blockDims, h]
  | drop name =>
    simp only [Call.does, Call.tables, List.filterMap_map]
    congr 1
    funext b
    cases b <;> simp [Block.mapParas, blockDims]
  | text l s => exact dims_atPlace _ _ _
  | tab l => exact dims_atPlace _ _ _
  | pageBreak l => exact dims_atPlace _ _ _
  | link l a b => exact dims_atPlace _ _ _
  | shape inline l w h a b k ln => exact dims_atPlace _ _ _
  | textTab l s => exact dims_atPlace _ _ _
  | keepIn l names => exact dims_atPlace _ _ _
  | dropIn l name => exact dims_atPlace _ _ _
  | _ => rfl

omit [GoEnv] in
theorem dims_result (cs : List Call) : (result cs).filterMap blockDims = tablesOf cs := by
  have key : ∀ (cs : List Call) (bs : List Block), (cs.foldl (fun bs c => c.does bs) bs).filterMap blockDims =
      cs.foldl (fun ts c => c.tables ts) (bs.filterMap blockDims) := by
    intro cs
    induction cs with
    | nil => exact fun _ => rfl
    | cons c cs ih => intro bs; rw [List.foldl_cons, List.foldl_cons, ih, dims_does]
  exact key cs []

omit [GoEnv] in
/-- **C107.** After any building calls the document has the tables that `AddTable` and `AddTableTwips` made, in order, with
the rows and cells they were asked for; only `KeepElements` removes them. -/
theorem C107_built (cs : List Call) (w : World) (hr : run [] (.new :: cs.map (Call.op 0)) = .ok w)
    (hl : ∀ f ∈ w, f.rels.length < 2 ^ 62) : ∃ f, w = [f] ∧ f.tables = tablesOf cs := by
  obtain ⟨f, e, hs⟩ := C98_built cs w hr hl
  exact ⟨f, e, by rw [tables_shows, hs, dims_result]⟩

omit [GoEnv] [ImgEnv] in
theorem tables_rectangular (cs : List Call) : ∀ t ∈ tablesOf cs, Rectangular t := by
  have key : ∀ (cs : List Call) (ts : List (List Nat)), (∀ t ∈ ts, Rectangular t) →
      ∀ t ∈ cs.foldl (fun ts c => c.tables ts) ts, Rectangular t := by
    intro cs
    induction cs with
    | nil => exact fun _ h => h
    | cons c cs ih =>
      intro ts h
      refine ih _ ?_
      cases c with
      | table rows cols width colors =>
        intro t ht
        rcases List.mem_append.1 ht with ht | ht
        · exact h t ht
        · rw [List.mem_singleton] at ht; subst ht; exact ⟨_, fun k hk => List.eq_of_mem_replicate hk⟩
      | tableTwips hs ws width colors =>
        intro t ht
        rcases List.mem_append.1 ht with ht | ht
        · exact h t ht
        · rw [List.mem_singleton] at ht; subst ht; exact ⟨_, fun k hk => List.eq_of_mem_replicate hk⟩
      | keep names =>
        simp only [Call.tables]
        split
        · exact h
        · simp
      | _ => exact h
  exact key cs [] (by simp)

omit [GoEnv] in
/-- **C107, rectangles.** In a document that calls built, all rows of a table have the same number of cells. -/
theorem C107_rectangular (cs : List Call) (w : World) (hr : run [] (.new :: cs.map (Call.op 0)) = .ok w)
    (hl : ∀ f ∈ w, f.rels.length < 2 ^ 62) : ∀ f ∈ w, ∀ t, .table t ∈ f.items →
      ∃ n, ∀ r ∈ t.rows, r.cells.length = n := by
  obtain ⟨f, rfl, ht⟩ := C107_built cs w hr hl
  intro g hg t htm
  rw [List.mem_singleton] at hg
  subst hg
  obtain ⟨n, hn⟩ := tables_rectangular cs (t.rows.map fun r => r.cells.length) (by
    rw [← ht]; exact List.mem_filterMap.2 ⟨_, htm, rfl⟩)
  exact ⟨n, fun r hr => hn _ (List.mem_map_of_mem hr)⟩

/-- **C107, in the file.** Any document of any program, saved and opened again, has the same tables. -/
theorem C107_file (w : World) (h : Program w) (f : Doc) (hf : f ∈ w) (out : Saved) (ho : Saves f out none) (me : DocId) :
    ∃ g, unpack me (reread out) = (g, none) ∧ g.tables = f.tables := by
  obtain ⟨h1, h2⟩ := program_fine h f hf
  obtain ⟨g, g1, _, _, g4, _⟩ := C87_opens f out ho (h1.good h2) me
  refine ⟨g, g1, ?_⟩
  unfold Doc.tables
  rw [g4, normBody, List.map_map, List.filterMap_map]
  congr 1
  funext x
  cases x with
  | table t => simp [cellCounts, clItem, normItem, clTable, normTable, clRow, normRow]
  | _ => rfl

omit [GoEnv] [ImgEnv] in
theorem copied_dims {R : CopyRules} {to : DocId} {as bs : List BItem} (h : Each (ItemCopied R to) as bs) :
    bs.filterMap cellCounts = as.filterMap cellCounts := by
  induction h with
  | nil => rfl
  | cons hab _ ih =>
    rename_i a b as bs _
    cases a with
    | para p =>
      obtain ⟨p', rfl, _⟩ := hab
      simp only [List.filterMap_cons, cellCounts, ih]
    | sect s =>
      cases hab
      simp only [List.filterMap_cons, cellCounts, ih]
    | table t =>
      obtain ⟨t', rfl, _, _, hr⟩ := hab
      have e : t'.rows.map (fun r => r.cells.length) = t.rows.map fun r => r.cells.length := by
        rw [each_image (q := id) hr fun a _ b hb => hb.2.length_eq.symm, List.map_id]
      simp only [List.filterMap_cons, cellCounts, ih, e]

omit [GoEnv] [ImgEnv] in
/-- **C107, joining.** `to.AppendFile(src)` adds the tables of `src` to those of `to`, also when they are the same
document; no other document changes.  For any documents. -/
theorem C107_append (w w' : World) (to src : DocId) (t s : Doc) (ht : w[to]? = some t) (hs : w[src]? = some s)
    (h : w.appendFile to src = .ok w') :
    ∃ t', w'[to]? = some t' ∧ t'.tables = t.tables ++ s.tables ∧ ∀ d, d ≠ to → w'[d]? = w[d]? := by
  obtain ⟨t', copies, h1, h2, h3, _, _, _, _, h4⟩ := C37_append w w' to src t s ht hs h
  exact ⟨t', h1, by unfold Doc.tables; rw [h2, List.filterMap_append, copied_dims h3], h4⟩

omit [GoEnv] [ImgEnv] in
/-- **C107, cutting.** The documents that a split makes have, one after the other, the tables of the document that is
split; the documents that were there stay as they are.  For any document and any rule. -/
theorem C107_split (w w' : World) (d : DocId) (f : Doc) (sep : World → Para → Res Bool) (ds : List DocId)
    (hf : w[d]? = some f) (h : w.splitByParagraph d sep = .ok (w', ds)) :
    ∃ gs : List Doc, ds.map (w'[·]?) = gs.map some ∧ (gs.map Doc.tables).flatten = f.tables ∧
      ∀ (e : DocId) g, w[e]? = some g → w'[e]? = some g := by
  obtain ⟨chunks, h1, h2, h3, h4⟩ := C32_partition w w' d f sep ds hf h
  have key : ∃ gs : List Doc, ds.map (w'[·]?) = gs.map some ∧ (gs.map Doc.tables).flatten =
      chunks.flatten.filterMap cellCounts := by
    clear h1 h3 hf h
    induction h2 with
    | nil => exact ⟨[], rfl, rfl⟩
    | cons hab _ ih =>
      obtain ⟨_, t', e1, e2⟩ := hab
      obtain ⟨gs, g1, g2⟩ := ih
      refine ⟨t' :: gs, by rw [List.map_cons, List.map_cons, e1, g1], ?_⟩
      rw [List.map_cons, List.flatten_cons, List.flatten_cons, List.filterMap_append, g2, ← copied_dims e2]
      rfl
  obtain ⟨gs, g1, g2⟩ := key
  exact ⟨gs, g1, by rw [g2, h1]; rfl, h4⟩

variable [HashEnv]

/-- **C105, exactly.** In a document that calls built, `String` of a paragraph or table returns exactly if no picture is
shown in it, for a table in the first paragraph of a cell; otherwise it panics. -/
theorem C105_exact (cs : List Call) (w : World) (hr : run [] (.new :: cs.map (Call.op 0)) = .ok w)
    (hl : ∀ f ∈ w, f.rels.length < 2 ^ 62) : ∃ f, w = [f] ∧ ∀ (i : Nat) (b : Block), (result cs)[i]? = some b →
      ∃ x, f.items[i]? = some x ∧ ((∃ t, x.printed w = .ok t) ↔ b.Pictureless) ∧
        (¬b.Pictureless → x.printed w = .panic) := by
  obtain ⟨f, rfl, hx⟩ := built_printable cs w hr hl
  refine ⟨f, rfl, fun i b hb => ?_⟩
  by_cases hc : ∀ rows, b = .table rows → ∃ r, rows.head? = some r ∧ r ≠ []
  · exact hx i b hb hc
  -- a table without cells
  · have : ∃ rows, b = .table rows ∧ ∀ r, rows.head? = some r → r = [] := by
      refine Classical.byContradiction fun hn => hc fun rows e => ?_
      refine Classical.byContradiction fun h2 => hn ⟨rows, e, fun r h3 => ?_⟩
      exact Classical.byContradiction fun h4 => h2 ⟨r, h3, h4⟩
    obtain ⟨rows, rfl, hh⟩ := this
    have hrect : ∀ r ∈ rows, r = [] := by
      obtain ⟨n, hn⟩ := tables_rectangular cs (rows.map List.length) (by
        rw [← dims_result]; exact List.mem_filterMap.2 ⟨_, List.mem_of_getElem? hb, rfl⟩)
      intro r hr
      cases rows with
      | nil => cases hr
      | cons r0 rs =>
        have h0 := hh r0 rfl
        subst h0
        have a := hn 0 (by simp)
        have b := hn _ (List.mem_map_of_mem hr)
        exact List.eq_nil_of_length_eq_zero (by omega)
    have hp : (Block.table rows).Pictureless := by
      intro r hr c hc
      rw [hrect r hr] at hc
      cases hc
    obtain ⟨f', e, hs⟩ := C98_built cs [f] hr hl
    cases e
    rw [← hs, Doc.shows, List.getElem?_map] at hb
    obtain ⟨x, h1, h2⟩ := Option.map_eq_some_iff.1 hb
    refine ⟨x, h1, ⟨fun _ => hp, fun _ => ?_⟩, fun h => absurd hp h⟩
    cases x with
    | para p => cases h2
    | sect s => exact ⟨_, rfl⟩
    | table t =>
      simp only [viewItem, Block.table.injEq] at h2
      subst h2
      refine (C31_table_iff _ t).2 ?_
      rintro ⟨r, h3, h4⟩
      exact absurd (List.map_eq_nil_iff.1 (hh _ (by rw [List.head?_map, h3]; rfl))) h4

end

/-! ## Cases -/

local instance gridEnv : GoEnv := ⟨fun _ => none, fun _ => false, fun _ => false⟩
local instance gridImg : ImgEnv := ⟨fun _ => none⟩

def gridCalls : List Call :=
  [.paragraph, .table 2 3 0 none, .cellParagraph 1 0 2, .text (.cell 1 0 2 0) "a", .tableTwips [0, 5, 9] [7] 0 none,
   .drop "canvas", .table 0 (-1) 0 none]

example : tablesOf gridCalls = [[3, 3], [1, 1, 1], []] ∧ (match run [] (.new :: gridCalls.map (Call.op 0)) with
    | .ok [f] => f.tables == [[3, 3], [1, 1, 1], []] && f.rels.length == 3
    | _ => false) = true := by decide +kernel

example : tablesOf (gridCalls ++ [.keep ["*docx.Paragraph"]]) = [] ∧
    tablesOf (gridCalls ++ [.keep ["*docx.Table"]]) = tablesOf gridCalls := by decide

/-- Two documents, one appended to the other -/
example : (match run [] [.new, .addTable 0 1 2 0 none, .new, .addTable 1 2 2 0 none, .append 0 1] with
    | .ok w => w.map Doc.tables == [[[2], [2, 2]], [[2, 2]]]
    | _ => false) = true := by decide +kernel

/-- A document with a table on each side of a paragraph, split before the paragraph -/
example : (match run [] [.new, .addTable 0 1 2 0 none, .addParagraph 0, .addTable 0 2 1 0 none] with
    | .ok w => (match w.splitByParagraph 0 fun _ _ => .ok true with
      | .ok (w', ds) => ds == [1, 2] && w'.map Doc.tables == [[[2], [1, 1]], [[2]], [[1, 1]]]
      | _ => false)
    | _ => false) = true := by decide +kernel

end Docx
