import Verif.SpecPlace
import Verif.Props.Merge
import Verif.Props.Printed
import Verif.Props.Table

/-!
# C25 in programs and files: paragraphs to which texts were added
-/

namespace Docx

/-- A run with nothing but texts -/
def TextRun (c : PChild) : Prop := ∃ r, c = .run r ∧ ∀ x ∈ r.children, ∃ t, x = RChild.text t

theorem joinFrom_texts : ∀ {cs : List RChild} {s : String}, (∀ x ∈ cs, ∃ t, x = RChild.text t) →
    ∀ x ∈ joinFrom s cs, ∃ t, x = RChild.text t
  | [], s, _, x, hx => by
    simp only [joinFrom, flushText] at hx
    split at hx
    · cases hx
    · rw [List.mem_singleton] at hx; exact ⟨_, hx⟩
  | c :: cs, s, h, x, hx => by
    obtain ⟨t, rfl⟩ := h c (.head _)
    simp only [joinFrom] at hx
    exact joinFrom_texts (fun y hy => h y (.tail _ hy)) x hx

theorem mergeFrom_texts {rule : MergeRule} : ∀ {cs : List PChild} {prev : Option Run} {adj : Bool},
    (∀ c ∈ cs, TextRun c) → (∀ r, prev = some r → ∀ x ∈ r.children, ∃ t, x = RChild.text t) →
    ∀ c ∈ mergeFrom rule prev adj cs, TextRun c := by
  have emit : ∀ {prev : Option Run} {adj : Bool}, (∀ r, prev = some r → ∀ x ∈ r.children, ∃ t, x = RChild.text t) →
      ∀ c ∈ emitRun prev adj, TextRun c := by
    intro prev adj h c hc
    cases prev with
    | none => simp [emitRun] at hc
    | some r =>
      cases adj with
      | false => simp [emitRun] at hc
      | true =>
        simp only [emitRun, List.mem_singleton] at hc
        exact ⟨r, hc, h r rfl⟩
  intro cs
  induction cs with
  | nil => intro prev adj _ hp; simp only [mergeFrom]; exact emit hp
  | cons c cs ih =>
    intro prev adj h hp
    have ht := fun c hc => h c (.tail _ hc)
    obtain ⟨r, rfl, hr⟩ := h c (.head _)
    have hj : ∀ q, some r.joined = some q → ∀ x ∈ q.children, ∃ t, x = RChild.text t := by
      intro q hq
      cases hq
      exact joinFrom_texts hr
    cases prev with
    | none => simp only [mergeFrom]; exact ih ht hj
    | some pr =>
      simp only [mergeFrom]
      split
      · refine ih ht fun q hq => ?_
        cases hq
        refine joinFrom_texts fun x hx => ?_
        rcases List.mem_append.1 hx with hx | hx
        · exact hp pr rfl x hx
        · exact hr x hx
      · intro c hc
        rcases List.mem_append.1 hc with hc | hc
        · exact emit hp c hc
        · exact ih ht hj c hc

theorem textRuns_map {cs : List PChild} (h : ∀ c ∈ cs, TextRun c) : ∃ rs : List Run, cs = rs.map .run ∧
    ∀ r ∈ rs, ∀ c ∈ r.children, ∃ t, c = RChild.text t := by
  induction cs with
  | nil => exact ⟨[], rfl, by simp⟩
  | cons c cs ih =>
    obtain ⟨rs, rfl, h1⟩ := ih fun c hc => h c (.tail _ hc)
    obtain ⟨r, rfl, h2⟩ := h c (.head _)
    refine ⟨r :: rs, rfl, fun q hq => ?_⟩
    rcases List.mem_cons.1 hq with rfl | hq
    · exact h2
    · exact h1 q hq

section
variable [HashEnv]

omit [HashEnv] in
theorem texts_safe {p : Para} (rule : MergeRule) (h : ∀ c ∈ p.children, TextRun c) : p.MergeSafe rule := by
  obtain ⟨rs, e, hr⟩ := textRuns_map h
  unfold Para.MergeSafe
  rw [e]
  cases rs with
  | nil => trivial
  | cons r rs => exact safe_texts rule rs (fun q hq => hr q (by simp [hq])) _

/-- Paragraphs of texts are merged without loss, and stay paragraphs of texts. -/
theorem merge_texts {w : World} {p : Para} (rule : MergeRule) (h : ∀ c ∈ p.children, TextRun c) :
    (p.mergeText rule).str w = p.str w ∧ ∀ c ∈ (p.mergeText rule).children, TextRun c := by
  obtain ⟨rs, e, hr⟩ := textRuns_map h
  refine ⟨C25_plain_partial w p rule rs e hr, ?_⟩
  rw [mergeText_safe p rule (texts_safe rule h)]
  exact mergeFrom_texts h (by simp)

/-- Texts that are joined -/
theorem joinFrom_str (w : World) : ∀ {cs : List RChild}, (∀ x ∈ cs, ∃ t, x = RChild.text t) →
    ∃ t, rchildrenStr w cs = .ok t ∧ ∀ s, joinFrom s cs = flushText (s ++ t)
  | [], _ => ⟨"", rfl, fun s => by simp [joinFrom]⟩
  | c :: cs, h => by
    obtain ⟨t, h1, h2⟩ := joinFrom_str w fun x hx => h x (.tail _ hx)
    obtain ⟨x, rfl⟩ := h c (.head _)
    exact ⟨x.text ++ t, by simp [rchildrenStr, RChild.str, h1], fun s => by simp [joinFrom, h2, String.append_assoc]⟩

omit [HashEnv] in
/-- Replacing in two texts that are joined -/
theorem clean_join (a b : String) : clean (a ++ b) = clean a ++ clean b := by
  apply String.toList_inj.1
  simp [clean]

/-- Saving and opening cleans their text. -/
theorem saved_texts {me : DocId} {p : Para} (h : ∀ c ∈ p.children, TextRun c) (w w1 : World) :
    ∃ t, p.str w = .ok t ∧ (normPara (some me) (clPara p)).str w1 = .ok (clean t) := by
  have pieces : ∀ cs : List RChild, (∀ x ∈ cs, ∃ t, x = RChild.text t) → ∃ t, rchildrenStr w cs = .ok t ∧
      rchildrenStr w1 (normRChildren (some me) (clRChildren cs)) = .ok (clean t) := by
    intro cs
    induction cs with
    | nil => exact fun _ => ⟨"", rfl, rfl⟩
    | cons c cs ih =>
      intro h
      obtain ⟨t, e1, e2⟩ := ih fun x hx => h x (.tail _ hx)
      obtain ⟨x, rfl⟩ := h c (.head _)
      refine ⟨x.text ++ t, by simp [rchildrenStr, RChild.str, e1], ?_⟩
      simp [rchildrenStr, clRChildren, normRChildren, clRChild, normRChild, RChild.str, e2, clText, clean_join]
  rcases p with ⟨props, cs, file⟩
  simp only [clPara, normPara, Para.str]
  replace h : ∀ c ∈ cs, TextRun c := h
  induction cs with
  | nil => exact ⟨"", rfl, rfl⟩
  | cons c cs ih =>
    obtain ⟨t, e1, e2⟩ := ih fun x hx => h x (.tail _ hx)
    obtain ⟨⟨a, b, c, ds⟩, rfl, hr⟩ := h c (.head _)
    obtain ⟨s, e3, e4⟩ := pieces ds hr
    refine ⟨s ++ t, ?_, ?_⟩
    · simp only [pchildrenStr, PChild.str, e3, Res.bind_ok, e1]; rfl
    · simp only [clPChildren, clPChild, clRun, normPChildren, normPChild, normRun, pchildrenStr, PChild.str, e4,
        Res.bind_ok, e2, clean_join]; rfl

end

/-- What is shown is the paragraph there. -/
theorem bitsAt_shows (f : Doc) (l : Loc) :
    bitsAt f.shows l = (getPara f.items l).map (viewPara f.referTarget f.pictureData) := by
  cases l with
  | body i =>
    simp only [bitsAt, getPara, Doc.shows, List.getElem?_map]
    cases f.items[i]? with
    | none => rfl
    | some x =>
      cases x with
      | sect s => simp only [Option.map_some, viewItem]; split <;> first | rfl | (split at * <;> simp_all)
      | _ => rfl
  | cell i r c j =>
    simp only [bitsAt, getPara, Doc.shows, List.getElem?_map]
    cases f.items[i]? with
    | none => rfl
    | some x =>
      cases x with
      | para p => rfl
      | sect s => simp only [Option.map_some, viewItem]; split <;> first | rfl | (split at * <;> simp_all)
      | table t =>
        simp only [Option.map_some, viewItem, List.getElem?_map]
        cases t.rows[r]? with
        | none => rfl
        | some row =>
          simp only [Option.map_some, bind, Option.bind_some, List.getElem?_map]
          cases row.cells[c]? with
          | none => rfl
          | some cell => simp [List.getElem?_map]

/-- A change of the paragraphs of a body, wherever they are -/
structure Through (F : BItem → BItem) (g : Para → Para) : Prop where
  para : ∀ p, F (.para p) = .para (g p)
  table : ∀ t, ∃ t', F (.table t) = .table t' ∧
    t'.rows.map (fun r => r.cells.map fun c => c.paras) = t.rows.map (fun r => r.cells.map fun c => c.paras.map g)
  sect : ∀ s, ∃ s', F (.sect s) = .sect s'

theorem getPara_grid (t : Table) (r c j : Nat) :
    (do let row ← t.rows[r]?; let cell ← row.cells[c]?; cell.paras[j]?) =
      (do let row ← (t.rows.map fun r => r.cells.map fun c => c.paras)[r]?; let cell ← row[c]?; cell[j]?) := by
  simp only [List.getElem?_map, bind]
  cases t.rows[r]? with
  | none => rfl
  | some row =>
    simp only [Option.map_some, Option.bind_some, List.getElem?_map]
    cases row.cells[c]? <;> rfl

theorem getPara_through {F : BItem → BItem} {g : Para → Para} (h : Through F g) (items : List BItem) (l : Loc) :
    getPara (items.map F) l = (getPara items l).map g := by
  cases l with
  | body i =>
    simp only [getPara, List.getElem?_map]
    cases items[i]? with
    | none => rfl
    | some x =>
      cases x with
      | para p => simp only [Option.map_some, h.para]
      | table t => obtain ⟨t', e, _⟩ := h.table t; simp only [Option.map_some, e]; rfl
      | sect s => obtain ⟨s', e⟩ := h.sect s; simp only [Option.map_some, e]; rfl
  | cell i r c j =>
    simp only [getPara, List.getElem?_map]
    cases items[i]? with
    | none => rfl
    | some x =>
      cases x with
      | para p => simp only [Option.map_some, h.para]; rfl
      | sect s => obtain ⟨s', e⟩ := h.sect s; simp only [Option.map_some, e]; rfl
      | table t =>
        obtain ⟨t', e, hg⟩ := h.table t
        simp only [Option.map_some, e]
        refine (getPara_grid t' r c j).trans ?_
        rw [hg]
        simp only [List.getElem?_map, bind]
        cases t.rows[r]? with
        | none => rfl
        | some row =>
          simp only [Option.map_some, Option.bind_some, List.getElem?_map]
          cases row.cells[c]? with
          | none => rfl
          | some cell => simp [List.getElem?_map]

theorem through_merge (g : Para → Para) : Through (fun x => ((mapParas g [x]).headD x)) g where
  para _ := rfl
  table t := ⟨_, rfl, by simp [Function.comp_def]⟩
  sect s := ⟨s, rfl⟩

theorem mapParas_map (g : Para → Para) (items : List BItem) :
    mapParas g items = items.map fun x => (mapParas g [x]).headD x := by
  unfold mapParas
  refine List.map_congr_left fun x _ => ?_
  cases x <;> rfl

theorem through_norm (me : DocId) : Through (fun x => normItem (some me) (clItem x)) (fun p => normPara (some me) (clPara p)) where
  para _ := rfl
  table t := ⟨_, rfl, by simp [normTable, clTable, normRow, clRow, normCell, clCell, Function.comp_def]⟩
  sect s := ⟨_, rfl⟩

theorem getPara_own {me : DocId} {items : List BItem} {l : Loc} {p : Para} (h : ∀ x ∈ items, OwnItem me x)
    (hp : getPara items l = some p) : OwnPara me p := by
  cases l with
  | body i =>
    simp only [getPara] at hp
    split at hp
    · rename_i q hq
      cases hp
      exact h _ (List.mem_of_getElem? hq)
    · cases hp
  | cell i r c j =>
    simp only [getPara] at hp
    split at hp
    · rename_i t ht
      simp only [bind, Option.bind_eq_some_iff] at hp
      obtain ⟨row, h1, cell, h2, h3⟩ := hp
      exact (h _ (List.mem_of_getElem? ht) row (List.mem_of_getElem? h1) cell (List.mem_of_getElem? h2)).2 p
        (List.mem_of_getElem? h3)
    · cases hp

section
variable [GoEnv] [ImgEnv] [HashEnv]

omit [GoEnv] [ImgEnv] [HashEnv] in
theorem texts_view {R : String → Option String} {M : String → Option Bytes} {p : Para} {ss : List String}
    (h : viewPara R M p = ss.map .text) : ∀ c ∈ p.children, TextRun c := by
  intro c hc
  have hb : ∀ b ∈ viewChild R M c, ∃ s, b = .text s := by
    intro b hb
    have : b ∈ viewPara R M p := List.mem_flatMap.2 ⟨c, hc, hb⟩
    rw [h] at this
    obtain ⟨s, _, e⟩ := List.mem_map.1 this
    exact ⟨s, e.symm⟩
  cases c with
  | rpr x => obtain ⟨s, e⟩ := hb .other (by simp [viewChild]); cases e
  | link l =>
    simp only [viewChild] at hb
    split at hb
    · obtain ⟨s, e⟩ := hb _ (.head _); cases e
    · obtain ⟨s, e⟩ := hb _ (.head _); cases e
  | run r =>
    refine ⟨r, rfl, fun x hx => ?_⟩
    simp only [viewChild] at hb
    split at hb
    · obtain ⟨s, e⟩ := hb _ (List.mem_map_of_mem hx)
      cases x with
      | text t => exact ⟨t, rfl⟩
      | tab t => cases e
      | br b => simp only [viewPiece] at e; split at e; cases e; split at e <;> cases e
      | drawing d =>
        have hg : ∀ b g, viewGraphic M b g ≠ .text s := by
          intro b g
          unfold viewGraphic
          repeat' split
          all_goals simp
        rcases d with ⟨_ | i, _ | a⟩
        · cases e
        · exact absurd e (hg _ _)
        · exact absurd e (hg _ _)
        · cases e
    · obtain ⟨s, e⟩ := hb _ (.head _); cases e

/-- **C25, in programs.** The documents of a program, built, opened, joined and cut as in C99.  A paragraph of the body or
of a cell into which only texts were put, with any formatting, keeps its text under `MergeText` with any rule. -/
theorem C25_texts_partial (w : World) (s : List (List Block)) (h : Makes w s) (d : DocId) (f : Doc) (bs : List Block)
    (hd : w[d]? = some f) (hs : s[d]? = some bs) (l : Loc) (ss : List String) (hb : bitsAt bs l = some (ss.map .text))
    (rule : MergeRule) :
    ∃ p, getPara f.items l = some p ∧ p.str w = .ok (String.join ss) ∧
      (p.mergeText rule).str w = .ok (String.join ss) := by
  obtain ⟨_, _, _, h4⟩ := makes_program h
  have hu := h4 d f bs hd hs
  rw [← hu.shows, bitsAt_shows] at hb
  obtain ⟨p, hx, hv⟩ := Option.map_eq_some_iff.1 hb
  have ho : OwnPara d p := getPara_own hu.own hx
  have hp : p.str w = .ok (String.join ss) := by
    rw [plain_printed (plain_view hd ho.1 (M := f.pictureData) (by rw [hv]; simp) (by
      rw [hv]; intro b hb; obtain ⟨s, _, rfl⟩ := List.mem_map.1 hb; rfl)),
      ← words_view hd ho.1 (M := f.pictureData) (by rw [hv]; simp), hv]
    simp [bitsWords, Function.comp_def, Bit.words]
  exact ⟨p, hx, hp, by rw [(merge_texts rule (texts_view hv)).1, hp]⟩

omit [HashEnv] in
/-- **C29, in programs.** A paragraph into which only texts were put: merging again, with a rule that looks only at the
formatting, changes nothing, and `MergeAllRuns` leaves at most one run, with one text or none. -/
theorem C29_texts_partial (w : World) (s : List (List Block)) (h : Makes w s) (d : DocId) (f : Doc) (bs : List Block)
    (hd : w[d]? = some f) (hs : s[d]? = some bs) (l : Loc) (ss : List String) (hb : bitsAt bs l = some (ss.map .text)) :
    ∃ p, getPara f.items l = some p ∧
      (∀ (rule : MergeRule) (R : Option RPr → Option RPr → Bool), (∀ a b, rule a b = R a.rpr b.rpr) →
        (p.mergeText rule).mergeText rule = p.mergeText rule) ∧
      (runsOf (p.mergeText mergeAllRuns).children).length ≤ 1 ∧ nonRuns (p.mergeText mergeAllRuns).children = [] ∧
      ∀ r ∈ runsOf (p.mergeText mergeAllRuns).children, r.children = flushText (String.join ss) := by
  obtain ⟨_, _, _, h4⟩ := makes_program h
  have e := (h4 d f bs hd hs).shows
  rw [← e, bitsAt_shows] at hb
  obtain ⟨p, hx, hv⟩ := Option.map_eq_some_iff.1 hb
  have ht := texts_view hv
  have h1 := congrArg List.length (C29_all p)
  simp only [List.length_map, List.length_take] at h1
  refine ⟨p, hx, fun rule R hR => C29_idempotent_partial p rule R hR (texts_safe rule ht), by omega, ?_, ?_⟩
  · rw [(C29_fewer_runs p _).1]
    obtain ⟨rs, e, _⟩ := textRuns_map ht
    rw [e]
    simp [nonRuns]
  · intro r hr
    haveI : HashEnv := ⟨fun _ => ""⟩
    obtain ⟨p', k1, _, k2⟩ := C25_texts_partial w s h d f bs hd hs l ss (by rw [← e, bitsAt_shows]; exact hb)
      mergeAllRuns
    rw [hx] at k1
    cases k1
    obtain ⟨rs, e1, e2⟩ := textRuns_map (merge_texts (w := w) mergeAllRuns ht).2
    have e3 : runsOf (p.mergeText mergeAllRuns).children = rs := by
      rw [e1]; clear e1 e2
      induction rs with
      | nil => rfl
      | cons r rs ih => exact congrArg (r :: ·) ih
    have hj : r.joined = r := by
      rw [mergeText_safe p _ (texts_safe _ ht)] at hr
      exact mergeFrom_joined _ _ _ _ (by simp) r hr
    rw [e3] at hr h1
    match rs, hr, h1, e1, e2 with
    | [q], hr, _, e1, e2 =>
      rw [List.mem_singleton] at hr
      subst hr
      obtain ⟨t, t1, t2⟩ := joinFrom_str w (e2 r (.head _))
      rw [Para.str, e1] at k2
      rcases r with ⟨a, b, c, ds⟩
      simp only [List.map_cons, List.map_nil, pchildrenStr, PChild.str] at k2 t1
      rw [t1] at k2
      have k3 : t = String.join ss := by
        simpa [Res.bind_ok, pure] using k2
      rw [← hj, ← k3]
      exact (t2 "").trans (by simp)
    | _ :: _ :: _, _, h1, _, _ => simp at h1; omega

/-- **C25, in files.** `MergeText` is called for all paragraphs of a document of a program, in the body and in cells, and
the document is saved and opened again.  The paragraphs into which only texts were put say what they said, with the
characters that XML cannot carry replaced. -/
theorem C25_file_partial (w : World) (s : List (List Block)) (h : Makes w s) (d : DocId) (f : Doc) (bs : List Block)
    (hd : w[d]? = some f) (hs : s[d]? = some bs) (rule : MergeRule) (out : Saved)
    (ho : Saves { f with items := mapParas (·.mergeText rule) f.items } out none) (me : DocId) :
    ∃ g, unpack me (reread out) = (g, none) ∧ ∀ (l : Loc) (ss : List String), bitsAt bs l = some (ss.map .text) →
      ∃ q, getPara g.items l = some q ∧ ∀ w1 : World, q.str w1 = .ok (clean (String.join ss)) := by
  obtain ⟨h1, _, h3, h4⟩ := makes_program h
  have hm := List.mem_of_getElem? hd
  obtain ⟨g, g1, _, _, g4, _⟩ := C87_opens _ out ho ((program_fine h1 f hm).1.good (h3 f hm)) me
  refine ⟨g, g1, fun l ss hb => ?_⟩
  obtain ⟨p, p1, p2, p3⟩ := C25_texts_partial w s h d f bs hd hs l ss hb rule
  refine ⟨normPara (some me) (clPara (p.mergeText rule)), ?_, fun w1 => ?_⟩
  · rw [g4, normBody, List.map_map]
    refine (getPara_through (through_norm me) _ l).trans ?_
    have hmm : getPara (mapParas (·.mergeText rule) f.items) l = (getPara f.items l).map (·.mergeText rule) := by
      rw [mapParas_map]
      exact getPara_through (through_merge _) _ l
    rw [hmm, p1]
    rfl
  · have hv : ∀ c ∈ p.children, TextRun c := by
      have hu := h4 d f bs hd hs
      rw [← hu.shows, bitsAt_shows, p1] at hb
      exact texts_view (R := f.referTarget) (M := f.pictureData) (by simpa using hb)
    obtain ⟨t, t1, t2⟩ := saved_texts (me := me) (merge_texts (w := w) rule hv).2 w w1
    rw [p3] at t1
    cases t1
    exact t2

end

/-! ## Case: two texts with different formatting, and a third with the formatting of the second -/

local instance mergeFileEnv : GoEnv := ⟨fun _ => none, fun _ => false, fun _ => false⟩
local instance mergeFileImg : ImgEnv := ⟨fun _ => none⟩
local instance mergeFileHash : HashEnv := ⟨fun _ => ""⟩

def mergeCalls : List Call :=
  [.paragraph, .text (.body 0) "a", .text (.body 0) "b", .formatRun (.body 0) 1 (fun r => { r with bold := true }),
   .text (.body 0) "c", .formatRun (.body 0) 2 (fun r => { r with bold := true })]

/-- The runs of the second and the third text are joined, and the merged document is saved. -/
example : ∃ (w : World) (f : Doc) (out : Saved), Makes w [[.para [.text "a", .text "b", .text "c"]]] ∧ w[0]? = some f ∧
    (f.items.map fun | .para p => p.children.length | _ => 0) = [3] ∧
    (f.items.map fun | .para p => (p.mergeText mergeSamePropRuns).children.length | _ => 0) = [2] ∧
    Saves { f with items := mapParas (·.mergeText mergeSamePropRuns) f.items } out none := by
  have key : (match run [Doc.new] (mergeCalls.map (Call.op 0)) with
    | .ok [f] => (f.rels.length == 3) && (f.tmpfslst == []) && f.media.isEmpty &&
        ((f.items.map fun | .para p => p.children.length | _ => 0) == [3]) &&
        ((f.items.map fun | .para p => (p.mergeText mergeSamePropRuns).children.length | _ => 0) == [2])
    | _ => false) = true := by decide +kernel
  have m0 : Makes [Doc.new] [[]] := .new .start
  split at key
  · rename_i f hr
    simp only [Bool.and_eq_true, beq_iff_eq, List.isEmpty_iff] at key
    obtain ⟨⟨⟨⟨k1, k2⟩, k3⟩, k4⟩, k5⟩ := key
    have m1 := makes_calls m0 hr (by
      intro g hg
      rw [List.mem_singleton.1 hg, k1]
      decide)
    obtain ⟨out, ho, _⟩ := saves_bare { f with items := mapParas (·.mergeText mergeSamePropRuns) f.items } k2 k3
    exact ⟨[f], f, out, m1, rfl, k4, k5, ho⟩
  · cases key

/-- A text in a cell, and where it is -/
example : bitsAt [.para [], .table [[[[.text "x"]], [[], [.text "a", .text "b"]]]]] (.cell 1 0 1 1) =
    some (["a", "b"].map .text) := by decide

def lostCalls : List Call := [.paragraph, .tab (.body 0), .text (.body 0) "a\tb"]
def movedCalls : List Call := [.paragraph, .text (.body 0) "a", .link (.body 0) "l" "u", .text (.body 0) "b"]

/-- The printed text of the first item, before and after `MergeText` with `MergeSamePropRuns` -/
def mergePrints (w : World) (f : Doc) : Option (Res String × Res String) :=
  match f.items with
  | .para p :: _ => some (p.str w, (p.mergeText mergeSamePropRuns).str w)
  | _ => none

/-- C25 is false of the code in documents that were just built: `AddTab` and `AddText("a\tb")`, then `MergeText`, print
"b" twice and "a" not at all; and a text after a link is moved before it. -/
theorem C25_built_lost : (match run [Doc.new] (lostCalls.map (Call.op 0)) with
    | .ok [f] => mergePrints [f] f == some (.ok "\ta\tb", .ok "\tb\tb")
    | _ => false) = true ∧ (match run [Doc.new] (movedCalls.map (Call.op 0)) with
    | .ok [f] => mergePrints [f] f == some (.ok "a[l](u)b", .ok "ab[l](u)")
    | _ => false) = true := by decide +kernel

end Docx
