import Verif.Lemmas.Space
import Verif.Lemmas.MergeVal

/-!
# C66: white space at the ends of texts is marked to be kept
-/

set_option linter.unusedSectionVars false

namespace Docx

/-! ## `AddText` -/

theorem outer_piece (x : List Char) : (wEl "t" [] [.text (String.ofList x)]).outer = outerSpace x := by
  simp [wEl, Node.outer]

/-- C66 for `AddText`, exactly: the white space of the paragraph is marked after the call if and only if
it was before and no piece of the text between tabs and line breaks has white space at an end.  What is
missing: the mark itself, which `AddText` never sets. -/
theorem C66_text_partial (p : Para) (s : String) : SpaceKept (mPara (p.addText s).1) ↔
    SpaceKept (mPara p) ∧ ∀ x ∈ textPieces [] s.toList, outerSpace x = false := by
  unfold SpaceKept
  rw [find_addText]
  simp only [List.mem_append, or_imp, forall_and, List.mem_map, List.mem_filter, decide_not, Bool.not_eq_true',
    decide_eq_false_iff_not, and_imp, forall_exists_index, ne_eq]
  refine and_congr_right fun _ => ⟨fun h x hx => ?_, fun h n x hx _ e ho => ?_⟩
  · cases e : outerSpace x with
    | false => rfl
    | true =>
      have hx' : x ≠ [] := by rintro rfl; simp [outerSpace] at e
      exact absurd (h _ x hx hx' rfl (by rw [outer_piece, e])) (by simp [wEl, Node.attrsOf])
  · subst e
    rw [outer_piece, h x hx] at ho
    simp at ho

/-- C66 is false of the code: a text that starts or ends with a space is never marked, whatever the
paragraph is.  `s` has no tabs and line breaks. -/
theorem C66_text_lost (p : Para) (s : String) (h : ∀ c ∈ s.toList, c ≠ '\t' ∧ c ≠ '\n')
    (hs : outerSpace s.toList = true) : ¬ SpaceKept (mPara (p.addText s).1) := by
  rw [C66_text_partial]
  rintro ⟨-, h2⟩
  have e : ∀ (cs acc : List Char), (∀ c ∈ cs, c ≠ '\t' ∧ c ≠ '\n') → textPieces acc cs = [acc.reverse ++ cs] := by
    intro cs
    induction cs with
    | nil => intro acc _; simp [textPieces]
    | cons c cs ih =>
      intro acc hc
      have hcc := hc c (by simp)
      rw [textPieces, if_neg (by simp [hcc.1, hcc.2]), ih _ fun d hd => hc d (by simp [hd])]
      simp
  have := h2 s.toList (by rw [e _ _ h]; simp)
  rw [hs] at this; simp at this

/-- The hypotheses are met: `AddText("Hello ")`. -/
example : ¬ SpaceKept (mPara (Para.addText {} "Hello ").1) :=
  C66_text_lost {} "Hello " (by decide) (by decide)

/-- and not by texts that need no mark: `AddText("Hello\tworld")` -/
example : SpaceKept (mPara (Para.addText {} "Hello\tworld").1) :=
  (C66_text_partial {} "Hello\tworld").2 ⟨by intro t ht; simp [mPara, el, optN, mPChildren, Node.find, findL] at ht,
    by decide⟩

/-! ## Histories -/

/-- Items loaded by the call, if any, are without marks; edits keep items without marks. -/
def Op.Unmarked : Op → Prop
  | .load items _ => ∀ x ∈ items, Docx.Unmarked (mItem x)
  | .edit _ g => ∀ items, (∀ x ∈ items, Docx.Unmarked (mItem x)) → ∀ x ∈ g items, Docx.Unmarked (mItem x)
  | _ => True

theorem op_unmarked {o : Op} (h : o.Unmarked) : o.ItemsOk unmarkedPred (fun _ => True) := by
  cases o <;> simp only [Op.ItemsOk] <;> simp only [Op.Unmarked] at h
  case load => intro x hx; exact each_item_holds (h x hx)
  case edit =>
    intro items hi x hx
    exact each_item_holds (h items (fun y hy => each_holds (hi y hy)) x hx)

/-- C66 for every history of calls, splitting and appending included: no text of a document built by
calls alone is marked, so the white space of the saved document is kept if and only if none of its texts
has white space at an end. -/
theorem C66_built_partial [ImgEnv] (os : List Op) (w : World) (ho : ∀ o ∈ os, o.Unmarked)
    (h : run [] os = .ok w) (f : Doc) (hf : f ∈ w) :
    Unmarked (mDocument f.items) ∧
      (SpaceKept (mDocument f.items) ↔ ∀ t ∈ (mDocument f.items).find "w" "t", t.outer = false) := by
  have hu : Unmarked (mDocument f.items) := (each_document _).2 fun x hx =>
    each_holds (run_holds unmarked_inv (fun o h => op_unmarked (ho o h)) (by intro f hf; simp at hf) h f hf x hx)
  refine ⟨hu, fun hk t ht => ?_, fun hk t ht ho => ?_⟩
  · cases e : t.outer with
    | false => rfl
    | true => have := hk t ht e; rw [hu t ht] at this; simp at this
  · rw [hk t ht] at ho; simp at ho

local instance spcImgEnv : ImgEnv := ⟨fun _ => some (10, 10, "png")⟩

/-- A history with text in a paragraph and a cell, a shape and a copy of it all -/
def spcOps : List Op :=
  [.new, .addParagraph 0, .addText 0 (.body 0) "a\tb", .addLink 0 (.body 0) "x " "http://x",
   .addInlineShape 0 (.body 0) 10 10 "s" "auto" "rect" none,
   .addTable 0 1 1 100 none, .cellAddParagraph 0 1 0 0, .addText 0 (.cell 1 0 0 0) "c ", .new, .append 1 0]

/-- The history meets the hypotheses and ends with two documents, each with an unmarked space at the end of
a text. -/
example : (∀ o ∈ spcOps, o.Unmarked) ∧ (match run [] spcOps with
    | .ok w => w.length == 2 && w.all fun f => ((mDocument f.items).find "w" "t").any Node.outer
    | _ => false) = true := by
  refine ⟨fun o ho => ?_, by decide +kernel⟩
  simp only [spcOps, List.mem_cons, List.not_mem_nil, or_false] at ho
  rcases ho with rfl | rfl | rfl | rfl | rfl | rfl | rfl | rfl | rfl | rfl <;> simp [Op.Unmarked]

/-! ## Reading and merging -/

theorem attrs_space : ∀ (as : List Attr) (s : Text), (attrs textAttr s as).1.space =
    (((as.filter fun a => a.name.loc == "space").map Attr.val).getLast?).getD s.space
  | [], s => rfl
  | a :: as, s => by
    rw [attrs]
    by_cases ha : a.name.loc = "space"
    · have : textAttr s a.name.loc a.val = ({ s with space := a.val }, none) := by rw [ha]; rfl
      rw [this]
      simp only
      rw [attrs_space as, List.filter_cons_of_pos (by simp [ha]), List.map_cons, List.getLast?_cons]
      rfl
    · have : textAttr s a.name.loc a.val = (s, none) := by
        unfold textAttr
        split
        · contradiction
        · rfl
      rw [this]
      simp only
      rw [attrs_space as, List.filter_cons_of_neg (by simp [ha])]

theorem loop_space : ∀ (f : Nat) (s : Text) (d : Dec),
    (loopN (fun s _ _ => flat s) (fun s c => { s with text := c }) f s d).val.space = s.space := by
  intro f
  induction f with
  | zero => intro s d; rfl
  | succ f ih =>
    intro s d
    rw [loopN]
    split
    · rfl
    · rfl
    · exact ih _ _
    · exact ih _ _
    · exact ih _ _

/-- C66, reading: the text element made from a `w:t` is saved with the last `space` attribute it had, so a
mark that was read is written again. -/
theorem C66_read (as : List Attr) (d : Dec) :
    (mText (unText as d).val).attrsOf = if lastAttr "space" as = "" then [] else
      [⟨⟨"xml", "space"⟩, lastAttr "space" as⟩] := by
  have e : (unText as d).val.space = lastAttr "space" as := by
    unfold unText withAttrs
    have ha := attrs_space as {}
    rcases hs : attrs textAttr {} as with ⟨s, _ | x⟩
    · rw [hs] at ha
      simp only [loopC]
      rw [loop_space, ha]; rfl
    · rw [hs] at ha
      simp only
      exact ha
  unfold mText el
  simp only [Node.attrsOf, strO, e]

example (d : Dec) : (mText (unText [preserveA] d).val).attrsOf = [preserveA] := C66_read [preserveA] d

/-- No text directly in the run is marked -/
def Run.NoMark (r : Run) : Prop := ∀ t, RChild.text t ∈ r.children → (mText t).attrsOf = []

theorem joinFrom_noMark : ∀ (cs : List RChild) (s : String) (t : Text), RChild.text t ∈ joinFrom s cs → t.space = "" := by
  have hf : ∀ (s : String) (t : Text), RChild.text t ∈ flushText s → t.space = "" := by
    intro s t h
    unfold flushText at h
    split at h
    · simp at h
    · simp at h; rw [h]
  intro cs
  induction cs with
  | nil => intro s t h; exact hf _ _ h
  | cons c cs ih =>
    intro s t h
    cases c with
    | text x => exact ih _ _ h
    | tab x =>
      rcases List.mem_append.1 h with h | h
      · exact hf _ _ h
      · simp at h; exact ih _ _ h
    | br x =>
      rcases List.mem_append.1 h with h | h
      · exact hf _ _ h
      · simp at h; exact ih _ _ h
    | drawing x =>
      rcases List.mem_append.1 h with h | h
      · exact hf _ _ h
      · simp at h; exact ih _ _ h

theorem joined_noMark (r : Run) (cs : List RChild) : Run.NoMark { r with children := joinTexts cs } := by
  intro t ht
  have := joinFrom_noMark _ _ _ ht
  simp [mText, el, Node.attrsOf, strO, this]

theorem mergeFrom_noMark (rule : MergeRule) : ∀ (cs : List PChild) (prev : Option Run) (adj : Bool),
    (∀ r, prev = some r → r.NoMark) → ∀ r, PChild.run r ∈ mergeFrom rule prev adj cs → r.NoMark := by
  have he : ∀ (prev : Option Run) (adj : Bool), (∀ r, prev = some r → r.NoMark) →
      ∀ r, PChild.run r ∈ emitRun prev adj → r.NoMark := by
    intro prev adj h r hr
    cases prev with
    | none => simp [emitRun] at hr
    | some x =>
      cases adj with
      | false => simp [emitRun] at hr
      | true => simp [emitRun] at hr; rw [hr]; exact h x rfl
  intro cs
  induction cs with
  | nil => intro prev adj h r hr; exact he prev adj h r (by rwa [mergeFrom] at hr)
  | cons c cs ih =>
    intro prev adj h r hr
    cases c with
    | run x =>
      cases prev with
      | none => exact ih _ _ (by rintro _ ⟨⟩; exact joined_noMark _ _) r hr
      | some pr =>
        rw [mergeFrom] at hr
        split at hr
        · exact ih _ _ (by rintro _ ⟨⟩; exact joined_noMark _ _) r hr
        · rcases List.mem_append.1 hr with hr | hr
          · exact he _ _ h r hr
          · exact ih _ _ (by rintro _ ⟨⟩; exact joined_noMark _ _) r hr
    | link x =>
      rw [mergeFrom] at hr
      rcases List.mem_append.1 hr with hr | hr
      · exact he _ _ h r hr
      · simp at hr; exact ih _ _ h r hr
    | rpr x =>
      rw [mergeFrom] at hr
      rcases List.mem_append.1 hr with hr | hr
      · exact he _ _ h r hr
      · simp at hr; exact ih _ _ h r hr

/-- C66 is false of `MergeText`, too: it takes the marks off the texts of all runs of the paragraph, even
of runs that it does not merge.  The paragraph may be any that `MergeText` merges without losing text. -/
theorem C66_merge (p : Para) (rule : MergeRule) (hs : p.MergeSafe rule) :
    ∀ r, .run r ∈ (p.mergeText rule).children → r.NoMark := by
  rw [mergeText_safe p rule hs]
  exact mergeFrom_noMark rule _ none false (by simp)

/-- A paragraph as Word writes it: the space at the end of the first text is marked.  It is lost by
`MergeText`. -/
theorem C66_merge_lost : ∃ p : Para, SpaceKept (mPara p) ∧ p.MergeSafe mergeAllRuns ∧
    ¬ SpaceKept (mPara (p.mergeText mergeAllRuns)) := by
  refine ⟨{ children := [.run { children := [.text { text := "Hello ", space := "preserve" }] }] }, ?_, trivial, ?_⟩
  · intro t ht _
    have e : (mPara { children := [.run { children := [.text { text := "Hello ", space := "preserve" }] }] }).find "w" "t" =
        [.elem ⟨"w", "t"⟩ [preserveA] [.text "Hello "]] := rfl
    rw [e] at ht
    rw [List.mem_singleton.1 ht]
    exact List.mem_singleton.2 rfl
  · intro h
    have e : (mPara (Para.mergeText { children := [.run { children := [.text { text := "Hello ", space := "preserve" }] }] }
        mergeAllRuns)).find "w" "t" = [.elem ⟨"w", "t"⟩ [] [.text "Hello "]] := rfl
    have := h (.elem ⟨"w", "t"⟩ [] [.text "Hello "]) (by rw [e]; simp) (by decide)
    simp [Node.attrsOf] at this

end Docx
