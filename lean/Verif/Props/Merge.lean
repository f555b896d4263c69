import Verif.Lemmas.MergeVal
import Verif.Lemmas.Str
import Verif.Props.Text
import Verif.Props.Api

/-! # C25, C26, C29: `MergeText` -/

namespace Docx

/-! ## C26: the receiver is not touched -/

/-- C26. Let a paragraph with children `cs` live on a heap `h` (each pointer to allocated objects).
After `MergeText`, for every rule, all its runs and texts still have the value they had: every run
and text object that existed before is unchanged. -/
theorem C26_receiver_unchanged (rule : MergeRule) (h : Heap) (cs : List HPC) (hok : ∀ c ∈ cs, c.Ok h) :
    cs.map (·.load (mergeLoop rule h none [] cs).1) = cs.map (·.load h) ∧
    (∀ i, i < h.texts.length → (mergeLoop rule h none [] cs).1.texts[i]? = h.texts[i]?) ∧
    (∀ i, i < h.runs.length → (mergeLoop rule h none [] cs).1.runs[i]? = h.runs[i]?) := by
  have f := mergeLoop_frame (n := h.texts.length) (m := h.runs.length) rule cs h none [] (by simp)
    (Nat.le_refl _) (Nat.le_refl _) (by
      intro i hi x hx
      unfold Heap.kids at hx
      rw [List.getElem?_eq_none hi] at hx
      simp at hx)
  exact ⟨List.map_congr_left fun c hc => HPC.load_mono (hok c hc) f.texts f.runs, f.texts, f.runs⟩

/-- C26. The same for the heap on which `mergeText` puts the paragraph: reading the original
pointers after the call gives the original children. -/
theorem C26_children_unchanged (rule : MergeRule) (p : Para) :
    let (h, cs) := allocPChildren ⟨[], []⟩ p.children
    cs.map (·.load (mergeLoop rule h none [] cs).1) = p.children := by
  obtain ⟨_, hok, hload⟩ := allocPChildren_spec p.children ⟨[], []⟩
  generalize allocPChildren ⟨[], []⟩ p.children = g at hok hload
  obtain ⟨h, cs⟩ := g
  exact (C26_receiver_unchanged rule h cs hok).1.trans hload

/-- a paragraph with two runs that are merged: the receiver keeps both -/
example : ∃ h cs, allocPChildren ⟨[], []⟩
      [.run { children := [.text { text := "a" }] }, .run { children := [.tab {}, .text { text := "b" }] }] = (h, cs) ∧
    cs.length = 2 ∧ (mergeLoop mergeAllRuns h none [] cs).2.length = 1 := ⟨_, _, rfl, rfl, by decide⟩

/-! ## C25: text is preserved -/

section
variable [HashEnv]

theorem rchildrenStr_joinFrom (w : World) (cs : List RChild) : ∀ s,
    rchildrenStr w (joinFrom s cs) = (do let b ← rchildrenStr w cs; return s ++ b) := by
  have fl : ∀ s, rchildrenStr w (flushText s) = .ok s := by
    intro s
    by_cases hs : s = ""
    · subst hs; rfl
    · rw [flushText_ne hs]; simp [rchildrenStr, RChild.str]
  have other : ∀ (s : String) (c : RChild) (ds : List RChild),
      rchildrenStr w (flushText s ++ c :: ds) = (do let b ← rchildrenStr w (c :: ds); return s ++ b) := by
    intro s c ds
    rw [rchildrenStr_append, fl]; rfl
  induction cs with
  | nil => intro s; simp [joinFrom, fl, rchildrenStr]
  | cons c cs ih =>
    intro s
    cases c with
    | text x =>
      simp only [joinFrom, ih, rchildrenStr, RChild.str, Res.bind_ok]
      cases rchildrenStr w cs <;> simp [String.append_assoc]
    | tab x =>
      simp only [joinFrom]; rw [other]; simp only [rchildrenStr, ih]
      cases RChild.str w (.tab x) <;> cases rchildrenStr w cs <;> simp
    | br x =>
      simp only [joinFrom]; rw [other]; simp only [rchildrenStr, ih]
      cases RChild.str w (.br x) <;> cases rchildrenStr w cs <;> simp
    | drawing x =>
      simp only [joinFrom]; rw [other]; simp only [rchildrenStr, ih]
      cases RChild.str w (.drawing x) <;> cases rchildrenStr w cs <;> simp

theorem rchildrenStr_joinTexts (w : World) (cs : List RChild) :
    rchildrenStr w (joinTexts cs) = rchildrenStr w cs := by
  rw [joinTexts, rchildrenStr_joinFrom]
  cases rchildrenStr w cs <;> simp

theorem pchildrenStr_mergeFrom (w : World) (file : Option DocId) (rule : MergeRule) (cs : List PChild) :
    ∀ (prev : Option Run) (adj : Bool), SafeFrom rule prev adj cs →
      pchildrenStr w file (mergeFrom rule prev adj cs) = pchildrenStr w file (emitRun prev adj ++ cs) := by
  have hj : ∀ (r : Run) (ds : List PChild), pchildrenStr w file (.run r.joined :: ds) = pchildrenStr w file (.run r :: ds) := by
    intro r ds; simp only [pchildrenStr, PChild.str, Run.joined, rchildrenStr_joinTexts]
  have ha : ∀ (q r : Run) (ds : List PChild), pchildrenStr w file (.run (q.absorb r) :: ds) =
      pchildrenStr w file (.run q :: .run r :: ds) := by
    intro q r ds
    simp only [pchildrenStr, PChild.str, Run.absorb, rchildrenStr_joinTexts, rchildrenStr_append]
    cases rchildrenStr w q.children <;> cases rchildrenStr w r.children <;>
      cases pchildrenStr w file ds <;> simp [String.append_assoc]
  have congr2 : ∀ a b c : List PChild, pchildrenStr w file b = pchildrenStr w file c →
      pchildrenStr w file (a ++ b) = pchildrenStr w file (a ++ c) := by
    intro a b c h; rw [pchildrenStr_append, pchildrenStr_append, h]
  induction cs with
  | nil => intro prev adj _; cases prev <;> simp [mergeFrom]
  | cons c cs ih =>
    intro prev adj hs
    cases c with
    | run r =>
      cases prev with
      | none =>
        simp only [mergeFrom]
        rw [ih _ _ hs]
        cases adj <;> exact hj r cs
      | some pr =>
        simp only [SafeFrom] at hs
        simp only [mergeFrom]
        split
        · rename_i hr
          rw [if_pos hr] at hs
          obtain ⟨rfl, _, hs⟩ := hs
          rw [ih _ _ hs]
          exact ha pr r cs
        · rename_i hr
          rw [if_neg hr] at hs
          refine congr2 _ _ _ ?_
          rw [ih _ _ hs]
          exact hj r cs
    | link l =>
      have hs' : SafeFrom rule prev false cs := by cases prev <;> exact hs
      have e0 : emitRun prev false = [] := by cases prev <;> rfl
      have hi := ih _ _ hs'
      rw [e0, List.nil_append] at hi
      have : mergeFrom rule prev adj (.link l :: cs) = emitRun prev adj ++ .link l :: mergeFrom rule prev false cs := by
        cases prev <;> rfl
      rw [this]
      refine congr2 _ _ _ ?_
      simp only [pchildrenStr, hi]
    | rpr l =>
      have hs' : SafeFrom rule prev false cs := by cases prev <;> exact hs
      have e0 : emitRun prev false = [] := by cases prev <;> rfl
      have hi := ih _ _ hs'
      rw [e0, List.nil_append] at hi
      have : mergeFrom rule prev adj (.rpr l :: cs) = emitRun prev adj ++ .rpr l :: mergeFrom rule prev false cs := by
        cases prev <;> rfl
      rw [this]
      refine congr2 _ _ _ ?_
      simp only [pchildrenStr, hi]

/-- C25. Whenever every merge that the rule asks for is of a run into the run directly before it
and of a run that is `Appendable`, merging leaves the printed text as it is. The full statement
(for every paragraph) is false: see `C25_text_lost` and `C25_text_moved`. -/
theorem C25_text_partial (w : World) (p : Para) (rule : MergeRule) (hs : p.MergeSafe rule) :
    (p.mergeText rule).str w = p.str w := by
  have hf : (p.mergeText rule).file = p.file := rfl
  unfold Para.str
  rw [mergeText_safe p rule hs, hf, pchildrenStr_mergeFrom w p.file rule p.children none false hs]
  rfl

omit [HashEnv] in
/-- a rule that never merges is safe -/
theorem safe_never (cs : List PChild) (rule : MergeRule) (hr : ∀ a b, rule a b = false) :
    ∀ prev adj, SafeFrom rule prev adj cs := by
  induction cs with
  | nil => intro prev adj; cases prev <;> trivial
  | cons c cs ih =>
    intro prev adj
    cases c with
    | run r =>
      cases prev with
      | none => exact ih _ _
      | some pr => simp only [SafeFrom, hr]; exact ih _ _
    | link l => cases prev <;> exact ih _ _
    | rpr l => cases prev <;> exact ih _ _

omit [HashEnv] in
/-- runs of texts only, one after the other, are safe for every rule -/
theorem safe_texts (rule : MergeRule) (rs : List Run) (ht : ∀ r ∈ rs, ∀ c ∈ r.children, ∃ t, c = RChild.text t) :
    ∀ prev, SafeFrom rule prev true (rs.map .run) := by
  induction rs with
  | nil => intro prev; cases prev <;> trivial
  | cons r rs ih =>
    intro prev
    have hr : TextLast r.children := ⟨[], r.children, rfl, by simp, ht r (by simp)⟩
    have ih' := ih fun q hq => ht q (by simp [hq])
    cases prev with
    | none => exact ih' _
    | some pr =>
      simp only [List.map_cons, SafeFrom]
      split
      · exact ⟨trivial, .inl hr, ih' _⟩
      · exact ih' _

/-- C25. For every rule, merging a paragraph made of plain-text runs leaves its text as it is. -/
theorem C25_plain_partial (w : World) (p : Para) (rule : MergeRule) (rs : List Run)
    (hp : p.children = rs.map .run) (ht : ∀ r ∈ rs, ∀ c ∈ r.children, ∃ t, c = RChild.text t) :
    (p.mergeText rule).str w = p.str w := by
  refine C25_text_partial w p rule ?_
  unfold Para.MergeSafe
  rw [hp]
  cases rs with
  | nil => trivial
  | cons r rs => exact safe_texts rule rs (fun q hq => ht q (by simp [hq])) _

/-- C25. For every paragraph, joining the texts inside each run (a rule that never merges) leaves
its text as it is. -/
theorem C25_no_merge_partial (w : World) (p : Para) (rule : MergeRule) (hr : ∀ a b, rule a b = false) :
    (p.mergeText rule).str w = p.str w :=
  C25_text_partial w p rule (safe_never _ rule hr _ _)

end

section
attribute [local instance] hashEnv

/-- the hypothesis of `C25_text_partial` is met by text with a tab after plain text, merged by
formatting; the runs do merge -/
example : ∃ p : Para, p.children = [.run { children := [.text { text := "a" }] },
      .run { children := [.text { text := "b" }, .tab {}, .text { text := "c" }] }] ∧
    p.MergeSafe mergeSamePropRuns ∧ (p.mergeText mergeSamePropRuns).children.length = 1 ∧
    (p.mergeText mergeSamePropRuns).str [] = .ok "ab\tc" := by
  refine ⟨{ children := _ }, rfl, ?_, by decide, by decide⟩
  refine ⟨rfl, .inr ⟨⟨_, rfl⟩, [.text { text := "b" }], [.tab {}, .text { text := "c" }], rfl, by simp, ?_⟩, trivial⟩
  exact ⟨[.tab {}], [.text { text := "c" }], rfl, by simp, by simp⟩

/-- C25 is false of the code: a tab, then text with a tab in it. One of the texts is printed twice
and the other is lost. -/
theorem C25_text_lost : ∃ p : Para, p.str [] = .ok "\ta\tb" ∧
    (p.mergeText mergeSamePropRuns).str [] = .ok "\tb\tb" :=
  ⟨{ children := [.run { children := [.tab {}] },
      .run { children := [.text { text := "a" }, .tab {}, .text { text := "b" }] }] }, by decide, by decide⟩

/-- C25 is false of the code: runs on both sides of a hyperlink are merged, so text moves from
behind the link to before it. -/
theorem C25_text_moved : ∃ (w : World) (p : Para), p.str w = .ok "a[l](rId9)b" ∧
    (p.mergeText mergeSamePropRuns).str w = .ok "ab[l](rId9)" :=
  ⟨[{}], { file := some 0, children := [.run { children := [.text { text := "a" }] },
      .link { id := "rId9", run := { instr := "l" } },
      .run { children := [.text { text := "b" }] }] }, by decide, by decide⟩

end

/-! ## C29: what is merged -/

/-- the runs among the children of a paragraph -/
def runsOf (cs : List PChild) : List Run := cs.filterMap fun | .run r => some r | _ => none

/-- the children of a paragraph that are not runs -/
def nonRuns (cs : List PChild) : List PChild := cs.filter fun | .run _ => false | _ => true

/-- Drop every element that is related to the last one kept. -/
def dedupFrom {α : Type} (R : α → α → Bool) : Option α → List α → List α
  | _, [] => []
  | none, b :: l => b :: dedupFrom R (some b) l
  | some a, b :: l => if R a b then dedupFrom R (some a) l else b :: dedupFrom R (some b) l

/-- everything of a run object but its children -/
def HRun.attrs (r : HRun) : String × Option RPr × String := (r.space, r.rpr, r.instr)
/-- everything of a run but its children -/
def Run.attrs (r : Run) : String × Option RPr × String := (r.space, r.rpr, r.instr)

theorem loadRun_attrs (h : Heap) (i : Nat) :
    (h.loadRun i).attrs = ((h.runs.map HRun.attrs)[i]?).getD ("", none, "") := by
  unfold Heap.loadRun
  rw [List.getElem?_map]
  cases h.runs[i]? <;> rfl

theorem attrs_pushKid (h : Heap) (i : Nat) (c : HRC) : (h.pushKid i c).runs.map HRun.attrs = h.runs.map HRun.attrs := by
  apply List.ext_getElem?
  intro j
  simp only [Heap.pushKid, List.getElem?_map, List.getElem?_modify]
  by_cases hij : i = j <;> cases h.runs[j]? <;> simp [hij, HRun.attrs]

theorem attrs_mergeKids : ∀ (cs : List HRC) (h : Heap) (prev t pt : Nat) (na : Bool),
    (mergeKids h prev t pt na cs).runs.map HRun.attrs = h.runs.map HRun.attrs := by
  intro cs
  induction cs with
  | nil => intro h prev t pt na; unfold mergeKids; split <;> simp [attrs_pushKid]
  | cons c cs ih =>
    intro h prev t pt na
    cases c with
    | txt x => simp only [mergeKids]; split <;> rw [ih]; rfl
    | other o =>
      simp only [mergeKids]
      split
      · rw [ih, attrs_pushKid]
        cases na
        · exact attrs_pushKid ..
        · rfl
      · rw [ih, attrs_pushKid]

theorem attrs_mergeInto (h : Heap) (prev t : Nat) (kids : List HRC) :
    (mergeInto h prev t kids).runs.map HRun.attrs = h.runs.map HRun.attrs := by
  unfold mergeInto
  split
  · exact attrs_mergeKids ..
  · exact attrs_mergeKids kids h.newText.1 prev t h.newText.2 false

theorem runs_gather (cs : List HRC) (h : Heap) (t : Nat) (acc : List HRC) : (gather h t acc cs).1.runs = h.runs :=
  (gather_frame (n := 0) (m := 0) cs h t acc (Nat.zero_le _) (Nat.zero_le _) (by simp)).2.2.1

/-- the run pointers among the children -/
def runPtrs (cs : List HPC) : List Nat := cs.filterMap fun | .run i => some i | .other _ => none
/-- the children that are not run pointers -/
def otherKids (cs : List HPC) : List PChild := cs.filterMap fun | .run _ => none | .other c => some c

@[simp] theorem runPtrs_append (a b : List HPC) : runPtrs (a ++ b) = runPtrs a ++ runPtrs b := by simp [runPtrs]
@[simp] theorem otherKids_append (a b : List HPC) : otherKids (a ++ b) = otherKids a ++ otherKids b := by simp [otherKids]
@[simp] theorem runPtrs_run (i : Nat) (a : List HPC) : runPtrs (.run i :: a) = i :: runPtrs a := rfl
@[simp] theorem runPtrs_other (c) (a : List HPC) : runPtrs (.other c :: a) = runPtrs a := rfl
@[simp] theorem otherKids_run (i : Nat) (a : List HPC) : otherKids (.run i :: a) = otherKids a := rfl
@[simp] theorem otherKids_other (c) (a : List HPC) : otherKids (.other c :: a) = c :: otherKids a := rfl
@[simp] theorem runPtrs_nil : runPtrs [] = [] := rfl
@[simp] theorem otherKids_nil : otherKids [] = [] := rfl

/-- the attributes of runs that are already there do not change -/
theorem attrs_ext {h h' : Heap} {ext : List (String × Option RPr × String)}
    (e : h'.runs.map HRun.attrs = h.runs.map HRun.attrs ++ ext) {is : List Nat} (his : ∀ i ∈ is, i < h.runs.length) :
    is.map (fun i => (h'.loadRun i).attrs) = is.map (fun i => (h.loadRun i).attrs) := by
  refine List.map_congr_left ?_
  intro i hi
  rw [loadRun_attrs, loadRun_attrs, e, List.getElem?_append_left (by simpa using his i hi)]

theorem mergeLoop_attrs (rule : MergeRule) : ∀ (cs : List HPC) (h : Heap) (prev : Option Nat) (acc : List HPC),
    (∀ i ∈ runPtrs (acc ++ cs), i < h.runs.length) → (∀ i, prev = some i → i < h.runs.length) →
    (∃ ext, (mergeLoop rule h prev acc cs).1.runs.map HRun.attrs = h.runs.map HRun.attrs ++ ext) ∧
    (∀ i ∈ runPtrs (mergeLoop rule h prev acc cs).2, i < (mergeLoop rule h prev acc cs).1.runs.length) ∧
    otherKids (mergeLoop rule h prev acc cs).2 = otherKids acc ++ otherKids cs ∧
    (∃ l, (runPtrs (mergeLoop rule h prev acc cs).2).map (fun i => ((mergeLoop rule h prev acc cs).1.loadRun i).attrs) =
        (runPtrs acc).map (fun i => (h.loadRun i).attrs) ++ l ∧
      List.Sublist l ((runPtrs cs).map fun i => (h.loadRun i).attrs) ∧
      ∀ R : Option RPr → Option RPr → Bool, (∀ a b, rule a b = R a.rpr b.rpr) →
        l = dedupFrom (fun a b => R a.2.1 b.2.1) (prev.map fun i => (h.loadRun i).attrs)
          ((runPtrs cs).map fun i => (h.loadRun i).attrs)) := by
  intro cs
  induction cs with
  | nil =>
    intro h prev acc hv _
    refine ⟨⟨[], by simp [mergeLoop]⟩, ?_, by simp [mergeLoop], [], by simp [mergeLoop], by simp, ?_⟩
    · simpa [mergeLoop] using hv
    · intro R _; simp [dedupFrom]
  | cons c cs ih =>
    intro h prev acc hv hp
    cases c with
    | other c =>
      simp only [mergeLoop]
      obtain ⟨a, b, c', l, d1, d2, d3⟩ := ih h prev (acc ++ [.other c]) (by simpa using hv) hp
      refine ⟨a, b, by rw [c']; simp, l, by rw [d1]; simp, by simpa using d2, by simpa using d3⟩
    | run o =>
      have hol : o < h.runs.length := hv o (by simp)
      obtain ⟨ro, hro⟩ : ∃ r, h.runs[o]? = some r := ⟨_, List.getElem?_eq_getElem hol⟩
      simp only [mergeLoop, hro]
      generalize hg : gather h.newText.1 h.newText.2 [] ro.children = g
      obtain ⟨h2, t, kids⟩ := g
      simp only
      have hr2 : h2.runs = h.runs := by
        have := runs_gather ro.children h.newText.1 h.newText.2 []
        rw [hg] at this; exact this
      have hro2 : (HRun.load h2 { ro with children := kids }).attrs = (h.loadRun o).attrs := by
        simp only [HRun.load, Run.attrs, Heap.loadRun, hro]
      have hat : ∀ i, (h2.loadRun i).attrs = (h.loadRun i).attrs := by
        intro i; rw [loadRun_attrs, loadRun_attrs, hr2]
      have hcs : ∀ i ∈ runPtrs cs, i < h.runs.length := fun i hi => hv i (by simp [hi])
      have hacc : ∀ i ∈ runPtrs acc, i < h.runs.length := fun i hi => hv i (by simp [hi])
      -- a new run is put out
      have fresh : (∀ R : Option RPr → Option RPr → Bool, (∀ a b, rule a b = R a.rpr b.rpr) →
            ∀ pr, prev = some pr → R (h.loadRun pr).rpr (h.loadRun o).rpr = false) →
          (∃ ext, (mergeLoop rule (h2.newRun { ro with children := kids }).1 (some h2.runs.length) (acc ++ [.run h2.runs.length]) cs).1.runs.map HRun.attrs = h.runs.map HRun.attrs ++ ext) ∧
          (∀ i ∈ runPtrs (mergeLoop rule (h2.newRun { ro with children := kids }).1 (some h2.runs.length) (acc ++ [.run h2.runs.length]) cs).2, i < (mergeLoop rule (h2.newRun { ro with children := kids }).1 (some h2.runs.length) (acc ++ [.run h2.runs.length]) cs).1.runs.length) ∧
          otherKids (mergeLoop rule (h2.newRun { ro with children := kids }).1 (some h2.runs.length) (acc ++ [.run h2.runs.length]) cs).2 = otherKids acc ++ otherKids cs ∧
          (∃ l, (runPtrs (mergeLoop rule (h2.newRun { ro with children := kids }).1 (some h2.runs.length) (acc ++ [.run h2.runs.length]) cs).2).map (fun i => ((mergeLoop rule (h2.newRun { ro with children := kids }).1 (some h2.runs.length) (acc ++ [.run h2.runs.length]) cs).1.loadRun i).attrs) =
              (runPtrs acc).map (fun i => (h.loadRun i).attrs) ++ l ∧
            List.Sublist l ((o :: runPtrs cs).map fun i => (h.loadRun i).attrs) ∧
            ∀ R : Option RPr → Option RPr → Bool, (∀ a b, rule a b = R a.rpr b.rpr) →
              l = dedupFrom (fun a b => R a.2.1 b.2.1) (prev.map fun i => (h.loadRun i).attrs)
                ((o :: runPtrs cs).map fun i => (h.loadRun i).attrs)) := by
        intro hno
        have hext : (h2.newRun { ro with children := kids }).1.runs.map HRun.attrs = h.runs.map HRun.attrs ++ [ro.attrs] := by
          simp [Heap.newRun, hr2, HRun.attrs]
        have hlen : (h2.newRun { ro with children := kids }).1.runs.length = h.runs.length + 1 := by simp [Heap.newRun, hr2]
        have hnew : ((h2.newRun { ro with children := kids }).1.loadRun h2.runs.length).attrs = (h.loadRun o).attrs := by
          rw [loadRun_attrs, hext, hr2, loadRun_attrs]
          simp [hro, HRun.attrs]
        obtain ⟨⟨ext, a⟩, b, c, l, d1, d2, d3⟩ := ih (h2.newRun { ro with children := kids }).1 (some h2.runs.length)
          (acc ++ [.run h2.runs.length]) (by
            intro i hi
            simp only [runPtrs_append, runPtrs_run, runPtrs_nil, List.mem_append, List.mem_singleton] at hi
            rw [hlen]
            rcases hi with (hi | hi) | hi
            · have := hacc i hi; omega
            · rw [hi, hr2]; omega
            · have := hcs i hi; omega) (by intro i hi; cases hi; rw [hlen, hr2]; omega)
        rw [attrs_ext hext hcs] at d2 d3
        refine ⟨⟨[ro.attrs] ++ ext, by rw [a, hext, List.append_assoc]⟩, b, by rw [c]; simp, (h.loadRun o).attrs :: l, ?_, ?_, ?_⟩
        · rw [d1]
          simp only [runPtrs_append, runPtrs_run, runPtrs_nil, List.map_append, List.map_cons, List.map_nil, hnew]
          rw [attrs_ext hext hacc]
          simp
        · exact d2.cons_cons _
        · intro R hR
          rw [d3 R hR]
          simp only [Option.map_some, hnew, List.map_cons]
          cases prev with
          | none => rfl
          | some pr =>
            have := hno R hR pr rfl
            simp only [Option.map_some, dedupFrom]
            rw [if_neg]
            simp only [Run.attrs]
            rw [this]; simp
      simp only [otherKids_run, runPtrs_run]
      cases prev with
      | none => exact fresh (by simp)
      | some pr =>
        simp only
        have hrule : ∀ R : Option RPr → Option RPr → Bool, (∀ a b, rule a b = R a.rpr b.rpr) →
            rule (h2.loadRun pr) (HRun.load h2 { ro with children := kids }) = R (h.loadRun pr).rpr (h.loadRun o).rpr := by
          intro R hR
          rw [hR]
          have h1 := hat pr
          have h2' := hro2
          simp only [Run.attrs, Prod.mk.injEq] at h1 h2'
          rw [h1.2.1, h2'.2.1]
        by_cases hb : rule (h2.loadRun pr) (HRun.load h2 { ro with children := kids }) = true
        · simp only [if_pos hb]
          have hext : (mergeInto h2 pr t kids).runs.map HRun.attrs = h.runs.map HRun.attrs ++ [] := by
            rw [attrs_mergeInto, hr2]; simp
          have hlen : (mergeInto h2 pr t kids).runs.length = h.runs.length := by
            have := congrArg List.length hext; simpa using this
          obtain ⟨⟨ext, a⟩, b, c, l, d1, d2, d3⟩ := ih (mergeInto h2 pr t kids) (some pr) acc
            (by intro i hi; rw [hlen]; exact hv i (by simp only [runPtrs_append, runPtrs_run, List.mem_append, List.mem_cons] at hi ⊢; rcases hi with hi | hi <;> simp [hi]))
            (by rw [hlen]; exact hp)
          rw [attrs_ext hext hcs] at d2 d3
          refine ⟨⟨ext, by rw [a, hext, List.append_nil]⟩, b, c, l, by rw [d1, attrs_ext hext hacc], ?_, ?_⟩
          · exact d2.cons _
          · intro R hR
            rw [d3 R hR]
            have := hrule R hR
            rw [hb] at this
            have hpr : ((mergeInto h2 pr t kids).loadRun pr).attrs = (h.loadRun pr).attrs := by
              rw [loadRun_attrs, hext, List.append_nil, ← loadRun_attrs]
            simp only [Option.map_some, hpr, List.map_cons, dedupFrom]
            rw [if_pos]
            simp only [Run.attrs]
            exact this.symm
        · simp only [if_neg hb]
          refine fresh ?_
          intro R hR q hq
          cases hq
          rw [← hrule R hR]; simpa using hb

theorem runsOf_load (h : Heap) (cs : List HPC) (hc : ∀ c, HPC.other c ∈ cs → ∀ r, c ≠ .run r) :
    runsOf (cs.map (·.load h)) = (runPtrs cs).map h.loadRun ∧ nonRuns (cs.map (·.load h)) = otherKids cs := by
  induction cs with
  | nil => exact ⟨rfl, rfl⟩
  | cons c cs ih =>
    obtain ⟨h1, h2⟩ := ih fun c hc' => hc c (by simp [hc'])
    cases c with
    | run i => exact ⟨by simp only [List.map_cons, HPC.load_run, runPtrs_run]; rw [← h1]; rfl, h2⟩
    | other c =>
      have := hc c (by simp)
      cases c with
      | run r => exact absurd rfl (this r)
      | link l => exact ⟨h1, by simp only [List.map_cons, HPC.load_other, otherKids_other]; rw [← h2]; rfl⟩
      | rpr l => exact ⟨h1, by simp only [List.map_cons, HPC.load_other, otherKids_other]; rw [← h2]; rfl⟩

theorem mergeText_attrs (p : Para) (rule : MergeRule) :
    nonRuns (p.mergeText rule).children = nonRuns p.children ∧
    List.Sublist ((runsOf (p.mergeText rule).children).map Run.attrs) ((runsOf p.children).map Run.attrs) ∧
    ∀ R : Option RPr → Option RPr → Bool, (∀ a b, rule a b = R a.rpr b.rpr) →
      (runsOf (p.mergeText rule).children).map Run.attrs =
        dedupFrom (fun a b => R a.2.1 b.2.1) none ((runsOf p.children).map Run.attrs) := by
  obtain ⟨_, hok, hload⟩ := allocPChildren_spec p.children ⟨[], []⟩
  have hoth := allocPChildren_other p.children ⟨[], []⟩
  unfold Para.mergeText
  generalize hg : allocPChildren ⟨[], []⟩ p.children = g at hok hload hoth
  obtain ⟨h, cs⟩ := g
  simp only at hok hload hoth ⊢
  obtain ⟨_, b, c, l, d1, d2, d3⟩ := mergeLoop_attrs rule cs h none [] (by
    intro i hi
    obtain ⟨c, hc, hci⟩ := List.mem_filterMap.1 hi
    cases c with
    | other c => simp at hci
    | run j => simp only [Option.some.injEq] at hci; subst hci; exact (hok _ hc).1) (by simp)
  obtain ⟨e1, e2⟩ := runsOf_load h cs hoth
  rw [hload] at e1 e2
  generalize mergeLoop rule h none [] cs = g at b c d1 ⊢
  obtain ⟨h', out⟩ := g
  simp only at b c d1 ⊢
  have hoth' : ∀ c, HPC.other c ∈ out → ∀ r, c ≠ .run r := by
    intro x hx
    have : x ∈ otherKids out := List.mem_filterMap.2 ⟨_, hx, rfl⟩
    rw [c] at this
    simp only [otherKids_nil, List.nil_append] at this
    obtain ⟨y, hy, hyx⟩ := List.mem_filterMap.1 this
    cases y with
    | run i => simp at hyx
    | other z => simp only [Option.some.injEq] at hyx; subst hyx; exact hoth _ hy
  obtain ⟨f1, f2⟩ := runsOf_load h' out hoth'
  have key : (runsOf (out.map (·.load h'))).map Run.attrs = l := by
    rw [f1, List.map_map]
    simp only [runPtrs_nil, List.map_nil, List.nil_append] at d1
    exact d1
  have key2 : (runsOf p.children).map Run.attrs = (runPtrs cs).map fun i => (h.loadRun i).attrs := by
    rw [e1, List.map_map]; rfl
  refine ⟨by rw [f2, c, e2]; rfl, by rw [key, key2]; exact d2, ?_⟩
  intro R hR
  rw [key, key2]; exact d3 R hR

/-- C29. For every rule: the result has the same non-run children in the same order, and its runs
are some of the original runs, in order, as far as their formatting goes. -/
theorem C29_fewer_runs (p : Para) (rule : MergeRule) :
    nonRuns (p.mergeText rule).children = nonRuns p.children ∧
    List.Sublist ((runsOf (p.mergeText rule).children).map Run.attrs) ((runsOf p.children).map Run.attrs) ∧
    (runsOf (p.mergeText rule).children).length ≤ (runsOf p.children).length := by
  obtain ⟨a, b, _⟩ := mergeText_attrs p rule
  exact ⟨a, b, by simpa using b.length_le⟩

/-- consecutive elements are not related -/
def NoAdjacent {α : Type} (R : α → α → Bool) (l : List α) : Prop :=
  ∀ i a b, l[i]? = some a → l[i + 1]? = some b → R a b = false

theorem dedupFrom_noAdjacent {α : Type} (R : α → α → Bool) : ∀ (l : List α) (a : Option α),
    NoAdjacent R (dedupFrom R a l) ∧ ∀ x y, a = some x → (dedupFrom R a l)[0]? = some y → R x y = false := by
  intro l
  induction l with
  | nil => intro a; exact ⟨by intro i x y hx; simp [dedupFrom] at hx, by intro x y _ h; simp [dedupFrom] at h⟩
  | cons b l ih =>
    intro a
    have hb : NoAdjacent R (b :: dedupFrom R (some b) l) := by
      obtain ⟨h1, h2⟩ := ih (some b)
      intro i x y hx hy
      cases i with
      | zero => simp at hx hy; subst hx; exact h2 _ y rfl hy
      | succ i => simp at hx hy; exact h1 i x y hx (by simpa using hy)
    cases a with
    | none => exact ⟨hb, by intro x y h; cases h⟩
    | some x =>
      simp only [dedupFrom]
      split
      · exact ih (some x)
      · rename_i hr
        refine ⟨hb, ?_⟩
        intro x' y hx hy
        cases hx
        simp at hy
        subst hy; simpa using hr

theorem mergeSame_format : ∃ R : Option RPr → Option RPr → Bool, ∀ a b : Run, mergeSamePropRuns a b = R a.rpr b.rpr :=
  ⟨fun x y => mergeSamePropRuns { rpr := x } { rpr := y }, fun _ _ => rfl⟩

/-- C29. For a rule that looks only at the formatting, no run of the result can be merged with the
next run of the result. -/
theorem C29_maximal (p : Para) (rule : MergeRule) (R : Option RPr → Option RPr → Bool)
    (hR : ∀ a b, rule a b = R a.rpr b.rpr) :
    NoAdjacent rule (runsOf (p.mergeText rule).children) := by
  have h := (mergeText_attrs p rule).2.2 R hR
  have h2 := (dedupFrom_noAdjacent (fun a b : String × Option RPr × String => R a.2.1 b.2.1)
    ((runsOf p.children).map Run.attrs) none).1
  rw [← h] at h2
  intro i a b ha hb
  rw [hR]
  exact h2 i a.attrs b.attrs (by simp [ha]) (by simp [hb])

/-- C29. In particular for `MergeSamePropRuns`, for every paragraph. -/
theorem C29_maximal_same (p : Para) :
    NoAdjacent mergeSamePropRuns (runsOf (p.mergeText mergeSamePropRuns).children) := by
  obtain ⟨R, hR⟩ := mergeSame_format
  exact C29_maximal p _ R hR

/-- C29. With a rule that looks only at the formatting, the formatting of the runs of the result
is that of the original runs with repetitions dropped. -/
theorem C29_formatting (p : Para) (rule : MergeRule) (R : Option RPr → Option RPr → Bool)
    (hR : ∀ a b, rule a b = R a.rpr b.rpr) :
    (runsOf (p.mergeText rule).children).map (·.rpr) = dedupFrom R none ((runsOf p.children).map (·.rpr)) := by
  have h := congrArg (List.map fun a => a.2.1) ((mergeText_attrs p rule).2.2 R hR)
  have hd : ∀ (l : List (String × Option RPr × String)) (a : Option (String × Option RPr × String)),
      (dedupFrom (fun a b => R a.2.1 b.2.1) a l).map (fun a => a.2.1) =
        dedupFrom R (a.map fun a => a.2.1) (l.map fun a => a.2.1) := by
    intro l
    induction l with
    | nil => intro a; cases a <;> rfl
    | cons b l ih =>
      intro a
      cases a with
      | none => simp only [dedupFrom, List.map_cons, ih]; rfl
      | some a =>
        simp only [dedupFrom, List.map_cons, Option.map_some]
        split
        · rw [ih]; rfl
        · rw [List.map_cons, ih]; rfl
  rw [hd, List.map_map, List.map_map] at h
  exact h

/-- C29. `MergeAllRuns` leaves one run, with the formatting of the first, unless there was none. -/
theorem C29_all (p : Para) :
    (runsOf (p.mergeText mergeAllRuns).children).map (·.rpr) = ((runsOf p.children).map (·.rpr)).take 1 := by
  rw [C29_formatting p mergeAllRuns (fun _ _ => true) fun _ _ => rfl]
  have h : ∀ (l : List (Option RPr)) (a : Option RPr), dedupFrom (fun _ _ => true) (some a) l = [] := by
    intro l
    induction l with
    | nil => intro a; rfl
    | cons b l ih => intro a; exact ih a
  cases (runsOf p.children).map (·.rpr) with
  | nil => rfl
  | cons a l => rw [dedupFrom, h]; rfl


/-- runs with their texts joined and no two of them in a row mergeable -/
theorem mergeFrom_fix (rule : MergeRule) : ∀ (cs : List PChild) (prev : Option Run) (adj : Bool),
    (∀ r ∈ runsOf cs, r.joined = r) →
    NoAdjacent rule (prev.toList ++ runsOf cs) →
    SafeFrom rule prev adj cs ∧ mergeFrom rule prev adj cs = emitRun prev adj ++ cs := by
  intro cs
  induction cs with
  | nil => intro prev adj _ _; cases prev <;> simp [SafeFrom, mergeFrom]
  | cons c cs ih =>
    intro prev adj hj hn
    cases c with
    | run r =>
      have hjr : r.joined = r := hj r (by simp [runsOf])
      have hj' : ∀ q ∈ runsOf cs, q.joined = q := fun q hq => hj q (by
        simp only [runsOf, List.filterMap_cons] at hq ⊢; exact List.mem_cons_of_mem _ hq)
      have hn' : NoAdjacent rule ((some r).toList ++ runsOf cs) := by
        cases prev with
        | none => exact hn
        | some pr => intro i a b ha hb; exact hn (i + 1) a b (by simpa [runsOf] using ha) (by simpa [runsOf] using hb)
      obtain ⟨h1, h2⟩ := ih (some r) true hj' hn'
      cases prev with
      | none =>
        simp only [SafeFrom, mergeFrom, hjr]
        refine ⟨h1, ?_⟩
        rw [h2]; cases adj <;> rfl
      | some pr =>
        have : rule pr r = false := hn 0 pr r rfl rfl
        simp only [SafeFrom, mergeFrom, hjr, this]
        refine ⟨h1, ?_⟩
        simp only [Bool.false_eq_true, if_false]
        rw [h2]; simp [emitRun]
    | link l =>
      obtain ⟨h1, h2⟩ := ih prev false hj hn
      have e0 : emitRun prev false = [] := by cases prev <;> rfl
      rw [e0, List.nil_append] at h2
      cases prev <;> (simp only [SafeFrom, mergeFrom]; exact ⟨h1, by rw [h2]⟩)
    | rpr l =>
      obtain ⟨h1, h2⟩ := ih prev false hj hn
      have e0 : emitRun prev false = [] := by cases prev <;> rfl
      rw [e0, List.nil_append] at h2
      cases prev <;> (simp only [SafeFrom, mergeFrom]; exact ⟨h1, by rw [h2]⟩)

theorem mergeFrom_joined (rule : MergeRule) : ∀ (cs : List PChild) (prev : Option Run) (adj : Bool),
    (∀ r, prev = some r → r.joined = r) → ∀ r ∈ runsOf (mergeFrom rule prev adj cs), r.joined = r := by
  have hjj : ∀ r : Run, r.joined.joined = r.joined := fun r => by simp [Run.joined, joinTexts_idem]
  have hab : ∀ q r : Run, (q.absorb r).joined = q.absorb r := fun q r => by simp [Run.joined, Run.absorb, joinTexts_idem]
  have happ : ∀ a b : List PChild, runsOf (a ++ b) = runsOf a ++ runsOf b := by intro a b; simp [runsOf]
  have hem : ∀ (prev : Option Run) adj, (∀ r, prev = some r → r.joined = r) → ∀ r ∈ runsOf (emitRun prev adj), r.joined = r := by
    intro prev adj hp r hr
    cases prev with
    | none => simp [emitRun, runsOf] at hr
    | some q =>
      cases adj with
      | false => simp [emitRun, runsOf] at hr
      | true => simp only [emitRun, runsOf, List.filterMap_cons, List.filterMap_nil, List.mem_singleton] at hr; subst hr; exact hp _ rfl
  intro cs
  induction cs with
  | nil => intro prev adj hp r hr; refine hem prev adj hp r ?_; cases prev <;> exact hr
  | cons c cs ih =>
    intro prev adj hp r hr
    cases c with
    | run q =>
      cases prev with
      | none => exact ih _ _ (by intro x hx; cases hx; exact hjj q) r hr
      | some pr =>
        simp only [mergeFrom] at hr
        split at hr
        · exact ih _ _ (by intro x hx; cases hx; exact hab pr q) r hr
        · rw [happ, List.mem_append] at hr
          rcases hr with hr | hr
          · exact hem _ _ hp r hr
          · exact ih _ _ (by intro x hx; cases hx; exact hjj q) r hr
    | link l =>
      have : mergeFrom rule prev adj (.link l :: cs) = emitRun prev adj ++ .link l :: mergeFrom rule prev false cs := by cases prev <;> rfl
      rw [this, happ, List.mem_append] at hr
      rcases hr with hr | hr
      · exact hem _ _ hp r hr
      · exact ih _ _ hp r hr
    | rpr l =>
      have : mergeFrom rule prev adj (.rpr l :: cs) = emitRun prev adj ++ .rpr l :: mergeFrom rule prev false cs := by cases prev <;> rfl
      rw [this, happ, List.mem_append] at hr
      rcases hr with hr | hr
      · exact hem _ _ hp r hr
      · exact ih _ _ hp r hr

/-- C29. With a rule that looks only at the formatting, merging again changes nothing, if every
merge of the first call is safe (see `C25_text_partial`). Without that it is false:
`C29_not_idempotent`. -/
theorem C29_idempotent_partial (p : Para) (rule : MergeRule) (R : Option RPr → Option RPr → Bool)
    (hR : ∀ a b, rule a b = R a.rpr b.rpr) (hs : p.MergeSafe rule) :
    (p.mergeText rule).mergeText rule = p.mergeText rule := by
  have hj : ∀ r ∈ runsOf (p.mergeText rule).children, r.joined = r := by
    rw [mergeText_safe p rule hs]
    exact mergeFrom_joined rule _ _ _ (by simp)
  obtain ⟨h1, h2⟩ := mergeFrom_fix rule (p.mergeText rule).children none false hj (C29_maximal p rule R hR)
  have h3 := mergeText_safe (p.mergeText rule) rule h1
  rw [h2] at h3
  have h4 : ∀ q : Para, q.mergeText rule = { q with children := (q.mergeText rule).children } := fun _ => rfl
  rw [h4 (p.mergeText rule), h3]
  show ({ props := p.props, children := _, file := p.file } : Para) = p.mergeText rule
  rw [h4 p]
  rfl

/-- two bold runs and a plain one, with a hyperlink in between -/
example : ∃ p : Para, (runsOf p.children).length = 3 ∧ (nonRuns p.children).length = 1 ∧
    (runsOf (p.mergeText mergeSamePropRuns).children).length = 2 ∧
    (∃ R : Option RPr → Option RPr → Bool, ∀ a b, mergeSamePropRuns a b = R a.rpr b.rpr) ∧
    p.MergeSafe mergeSamePropRuns :=
  ⟨{ children := [.run { rpr := some { bold := true }, children := [.text { text := "a" }] },
      .run { rpr := some { bold := true }, children := [.text { text := "b" }] },
      .link { run := {} }, .run { children := [.text { text := "c" }] }] }, by decide, by decide, by decide, mergeSame_format,
    rfl, .inl ⟨[], _, rfl, by simp, by simp⟩, trivial⟩

/-- C29: merging twice can differ from merging once. The first call leaves an empty text between
two tabs, the second removes it. -/
theorem C29_not_idempotent : ∃ p : Para,
    ((runsOf (p.mergeText mergeSamePropRuns).children).map fun r => r.children.length) = [3] ∧
    ((runsOf ((p.mergeText mergeSamePropRuns).mergeText mergeSamePropRuns).children).map fun r => r.children.length) = [2] :=
  ⟨{ children := [.run { children := [.tab {}] },
      .run { children := [.text { text := "a" }, .tab {}] }] }, by decide, by decide⟩

end Docx
