import Verif.SpecApart
import Verif.SpecPlace
import Verif.Props.Printable
import Verif.Props.MergeFile

/-!
# C25: documents built by calls that keep their texts apart from tabs
-/

namespace Docx

section
variable [GoEnv] [ImgEnv]

/-- A run whose text comes last -/
def ApartChild : PChild → Prop
  | .run r => TextLast r.children
  | _ => False

/-- A paragraph of such runs -/
def ApartPara (p : Para) : Prop := ∀ c ∈ p.children, ApartChild c

/-- Paragraphs and cells, likewise -/
def ApartItem : BItem → Prop
  | .para p => ApartPara p
  | .table t => ∀ r ∈ t.rows, ∀ c ∈ r.cells, ∀ p ∈ c.paras, ApartPara p
  | .sect _ => True

omit [GoEnv] [ImgEnv] in
theorem apart_modPara {items : List BItem} {l : Loc} {g : Para → Para} (ho : ∀ x ∈ items, ApartItem x)
    (h : ∀ p, getPara items l = some p → ApartPara p → ApartPara (g p)) :
    ∀ x ∈ modPara items l g, ApartItem x := by
  cases l with
  | body i =>
    simp only [modPara]
    refine all_modify ho fun a ha hP => ?_
    cases a with
    | para p => exact h p (by simp [getPara, ha]) hP
    | table t => exact hP
    | sect s => exact hP
  | cell i r c j =>
    simp only [modPara]
    refine all_modify ho fun a ha hP => ?_
    cases a with
    | para p => exact hP
    | sect s => exact hP
    | table t =>
      refine all_modify (P := fun r : Row => ∀ c ∈ r.cells, ∀ p ∈ c.paras, ApartPara p)
        hP fun row hrow hr => ?_
      refine all_modify (P := fun c : Cell => ∀ p ∈ c.paras, ApartPara p) hr fun cell hcell hc => ?_
      refine all_modify (P := ApartPara) hc fun p hp hpf => ?_
      exact h p (by simp [getPara, ha, hrow, hcell, hp]) hpf

omit [GoEnv] [ImgEnv] in
theorem apart_push {l : List BItem} {b : BItem} (h : ∀ b ∈ l, ApartItem b) (hb : ApartItem b) :
    ∀ x ∈ l ++ [b], ApartItem x := by
  intro x hx
  rcases List.mem_append.1 hx with hx | hx
  · exact h x hx
  · rw [List.mem_singleton] at hx
    subst hx
    exact hb

omit [GoEnv] in
theorem addText_pieces {M : String → Option Bytes} (p : Para) (s : String) :
    (p.addText s).2.children.map (viewPiece M) = bitsOf s.toList := by
  have h := view_addText (fun _ => none) M p s
  rw [addText_addRun] at h
  have hi : (p.addText s).2.instr = "" := by unfold Para.addText; split <;> rfl
  simp only [viewPara, Para.addRun, List.flatMap_append, List.flatMap_cons, List.flatMap_nil, List.append_nil,
    List.append_cancel_left_eq, viewChild, hi, if_true] at h
  exact h

omit [GoEnv] [ImgEnv] in
theorem viewPiece_text {M : String → Option Bytes} {x : RChild} {s : String} (e : viewPiece M x = .text s) :
    ∃ t, x = RChild.text t := by
  cases x with
  | text t => exact ⟨t, rfl⟩
  | tab t => cases e
  | br b => simp only [viewPiece] at e; split at e; cases e; split at e <;> cases e
  | drawing d =>
    have hg : ∀ b g, viewGraphic M b g ≠ .text s := by
      intro b g
      unfold viewGraphic
      repeat' split
      all_goals simp
    rcases d with ⟨_ | i, _ | a⟩
    · cases e
    · exact absurd e (hg _ _)
    · exact absurd e (hg _ _)
    · cases e

omit [GoEnv] [ImgEnv] in
theorem apart_addRun {p : Para} {r : Run} (h : ApartPara p) (hr : TextLast r.children) : ApartPara (p.addRun r) := by
  intro c hc
  rcases List.mem_append.1 hc with hc | hc
  · exact h c hc
  · rw [List.mem_singleton] at hc
    subst hc
    exact hr

omit [GoEnv] [ImgEnv] in
theorem textLast_map {M : String → Option Bytes} {cs : List RChild} (h : TextsLast (cs.map (viewPiece M))) : TextLast cs := by
  obtain ⟨os, ts, e, h1, h2⟩ := h
  obtain ⟨as, bs, rfl, rfl, rfl⟩ := List.map_eq_append_iff.1 e
  refine ⟨as, bs, rfl, fun t ht => absurd (List.mem_map_of_mem ht) (h1 t.text), fun c hc => ?_⟩
  obtain ⟨s, e⟩ := h2 _ (List.mem_map_of_mem hc)
  exact viewPiece_text e

omit [GoEnv] [ImgEnv] in
theorem textLast_one (c : RChild) : TextLast [c] := by
  cases c with
  | text t => exact ⟨[], _, rfl, by simp, by simp⟩
  | _ => exact ⟨_, [], (List.append_nil _).symm, by simp, by simp⟩

omit [GoEnv] [ImgEnv] in
theorem textLast_each {φ : RChild → RChild} (ht : ∀ t, φ (.text t) = .text t) (ho : ∀ c t, φ c = .text t → c = .text t)
    {cs : List RChild} (h : TextLast cs) : TextLast (cs.map φ) := by
  obtain ⟨os, ts, rfl, h1, h2⟩ := h
  refine ⟨os.map φ, ts.map φ, List.map_append, fun t hm => ?_, fun c hc => ?_⟩
  · obtain ⟨c, hc, e⟩ := List.mem_map.1 hm
    exact h1 t (ho c t e ▸ hc)
  · obtain ⟨x, hx, rfl⟩ := List.mem_map.1 hc
    obtain ⟨t, rfl⟩ := h2 x hx
    exact ⟨t, ht t⟩

omit [GoEnv] [ImgEnv] in
theorem textLast_sub {cs ds : List RChild} (h : TextLast cs) (hs : List.Sublist ds cs) : TextLast ds := by
  obtain ⟨os, ts, rfl, h1, h2⟩ := h
  obtain ⟨as, bs, rfl, ha, hb⟩ := List.sublist_append_iff.1 hs
  exact ⟨as, bs, rfl, fun t ht => h1 t (ha.subset ht), fun c hc => h2 c (hb.subset hc)⟩

omit [GoEnv] in
theorem apart_addText {p : Para} {s : String} (h : TextsLast (bitsOf s.toList)) : TextLast (p.addText s).2.children := by
  refine textLast_map (M := fun _ => none) ?_
  rw [addText_pieces]
  exact h

omit [GoEnv] [ImgEnv] in
theorem dropR_sub {t : Drawing → Bool} : ∀ cs : List RChild, List.Sublist (dropRChildren t cs) cs
  | [] => .slnil
  | c :: cs => by
    have ih := dropR_sub (t := t) cs
    cases c with
    | drawing d =>
      simp only [dropRChildren]
      split
      · exact ih.cons _
      · exact ih.cons_cons _
    | _ => exact ih.cons_cons _

omit [GoEnv] [ImgEnv] in
theorem apart_dropChildren {t : Drawing → Bool} : ∀ {cs : List PChild}, (∀ c ∈ cs, ApartChild c) →
    ∀ c ∈ dropPChildren t cs, ApartChild c
  | [], h => h
  | c :: cs, h => by
    have ih := apart_dropChildren (t := t) fun x hx => h x (.tail _ hx)
    have hc := h c (.head _)
    cases c with
    | run r =>
      intro x hx
      simp only [dropPChildren] at hx
      rcases List.mem_cons.1 hx with rfl | hx
      · exact textLast_sub hc (dropR_sub _)
      · exact ih x hx
    | _ => exact hc.elim

omit [GoEnv] [ImgEnv] in
theorem apart_dropPara {p : Para} (name : String) (h : ApartPara p) : ApartPara (dropPara name p) := by
  unfold dropPara dropMethod
  repeat' split
  all_goals first | exact h | skip
  all_goals
    rename_i hm
    repeat' split at hm
    all_goals first | cases hm | skip
    all_goals exact apart_dropChildren h

omit [GoEnv] in
/-- The calls keep the paragraphs so. -/
theorem apart_step {Q : String → Prop} {me : DocId} {f f' : Doc} {bs : List Block} {c : Call} {w w' : World}
    (h : BuiltUp Q me f bs) (hw : w[me]? = some f) (hs : step w (c.op me) = .ok w') (hf' : w'[me]? = some f')
    (ht : c.Apart) (hk : ∀ x ∈ f.items, ApartItem x) : ∀ x ∈ f'.items, ApartItem x := by
  have got : ∀ {g : Doc}, w' = w.set me g → f' = g := by
    rintro g rfl
    rw [List.getElem?_set_self (lt_of_getElem? hw)] at hf'
    exact (Option.some.inj hf').symm
  have para : ∀ {l : Loc} {act : Doc → Para → Res (Doc × Para)},
      World.onPara w me l act = .ok w' →
      (∀ p f1 p1, act f p = .ok (f1, p1) → f1.items = f.items ∧ (ApartPara p → ApartPara p1)) →
      ∀ x ∈ f'.items, ApartItem x := by
    intro l act h1 h2
    obtain ⟨p, f1, p1, hgp, hact, e⟩ := onPara_own h hw h1
    obtain ⟨i1, i2⟩ := h2 p f1 p1 hact
    rw [got e]
    show ∀ x ∈ modPara f1.items l fun _ => p1, ApartItem x
    rw [i1]
    refine apart_modPara hk fun q hq hh => ?_
    rw [hgp] at hq
    cases hq
    exact i2 hh
  have edit : ∀ {act : Doc → Res Doc}, World.onDoc w me act = .ok w' → act f = .ok f' := by
    intro act h1
    obtain ⟨f1, h2, e⟩ := onDoc_one hw h1
    rw [got e]
    exact h2
  cases c with
  | paragraph => cases edit hs; exact apart_push hk fun c hc => by cases hc
  | cellParagraph i r c =>
    cases edit hs
    refine all_modify hk fun a _ hP => ?_
    cases a with
    | table t =>
      refine all_modify (P := fun r : Row => ∀ c ∈ r.cells, ∀ p ∈ c.paras, ApartPara p) hP fun row _ hr => ?_
      refine all_modify (P := fun c : Cell => ∀ p ∈ c.paras, ApartPara p) hr fun cell _ hc => ?_
      intro p hp
      rcases List.mem_append.1 hp with hp | hp
      · exact hc p hp
      · rw [List.mem_singleton] at hp; subst hp; exact fun c hc => by cases hc
    | _ => exact hP
  | table rows cols width colors =>
    have h1 := edit hs
    simp only [Doc.addTable] at h1
    split at h1
    · rename_i h2
      split at h2
      · cases h2
      · split at h2
        · cases h2
        · cases h2
          cases h1
          refine apart_push hk ?_
          intro r hr c hc
          rw [List.eq_of_mem_replicate hr] at hc
          rw [List.eq_of_mem_replicate hc]
          exact fun p hp => by cases hp
    · cases h1
    · cases h1
  | tableTwips heights widths width colors =>
    cases edit hs
    refine apart_push hk ?_
    intro r hr c hc
    obtain ⟨_, _, rfl⟩ := List.mem_map.1 hr
    obtain ⟨_, _, rfl⟩ := List.mem_map.1 hc
    exact fun p hp => by cases hp
  | a3 => cases edit hs; exact apart_push hk trivial
  | a4 => cases edit hs; exact apart_push hk trivial
  | text l s => exact para hs fun p f1 p1 h1 => by cases h1; exact ⟨rfl, fun hh => by rw [addText_addRun]; exact apart_addRun hh (apart_addText ht)⟩
  | tab l => cases edit hs; exact apart_modPara hk fun p _ hh => apart_addRun hh (textLast_one _)
  | pageBreak l => cases edit hs; exact apart_modPara hk fun p _ hh => apart_addRun hh (textLast_one _)
  | link l label target => exact ht.elim
  | picture inline l pic =>
    have key : ∀ {act : Doc → Para → Res (Doc × Para)} (mk : Int64 → Int64 → String → Int64 → Int64 → Drawing),
        World.onPara w me l act = .ok w' →
        (∀ f p, act f p = match f.addPicture pic with
          | (f', .ok (idn, id, rid, x, y)) => .ok (f', p.addRun (drawingRun (mk idn id rid x y)))
          | (f', .err _) => .ok (f', p)
          | (_, .panic) => .panic) →
        ∀ x ∈ f'.items, ApartItem x := by
      intro act mk h1 h2
      refine para h1 fun p f1 p1 h3 => ?_
      rw [h2] at h3
      simp only [Doc.addPicture] at h3
      cases hd : ImgEnv.decodeSize pic with
      | none =>
        rw [hd] at h3
        cases h3
        exact ⟨rfl, id⟩
      | some sz =>
        obtain ⟨w0, h0, fmt⟩ := sz
        rw [hd] at h3
        dsimp only at h3
        cases hsc : scaleSize w0 h0 with
        | none => rw [hsc] at h3; cases h3
        | some xy =>
          rw [hsc] at h3
          cases h3
          exact ⟨rfl, fun hh => apart_addRun hh (textLast_one _)⟩
    cases inline with
    | true =>
      refine key (fun idn id rid x y => { inl := some (mkInlinePic idn id rid x y) }) hs (fun f p => ?_)
      simp only [Para.addInlineDrawing]
      rcases f.addPicture pic with ⟨f', _ | _ | _⟩ <;> rfl
    | false =>
      refine key (fun idn id rid x y => { anchor := some (mkAnchorPic idn id rid x y) }) hs (fun f p => ?_)
      simp only [Para.addAnchorDrawing]
      rcases f.addPicture pic with ⟨f', _ | _ | _⟩ <;> rfl
  | shape inline l x y name bw kind ln =>
    cases inline with
    | true =>
      exact para hs fun p f1 p1 h1 => by
        cases h1; exact ⟨rfl, fun hh => apart_addRun hh (textLast_one _)⟩
    | false =>
      exact para hs fun p f1 p1 h1 => by
        cases h1; exact ⟨rfl, fun hh => apart_addRun hh (textLast_one _)⟩
  | formatRun l k φ =>
    cases edit hs
    exact apart_modPara hk fun p _ hh => all_modify hh fun c _ hc => by cases c <;> exact hc
  | formatPara l φ => cases edit hs; exact apart_modPara hk fun p _ hh => hh
  | formatTable i φ => cases edit hs; exact all_modify hk fun a _ hP => by cases a <;> exact hP
  | formatRow i r φ =>
    cases edit hs
    refine all_modify hk fun a _ hP => ?_
    cases a with
    | table t => exact all_modify (P := fun r : Row => ∀ c ∈ r.cells, ∀ p ∈ c.paras, ApartPara p) hP fun row _ hr => hr
    | _ => exact hP
  | formatCell i r c φ =>
    cases edit hs
    refine all_modify hk fun a _ hP => ?_
    cases a with
    | table t =>
      refine all_modify (P := fun r : Row => ∀ c ∈ r.cells, ∀ p ∈ c.paras, ApartPara p) hP fun row _ hr => ?_
      exact all_modify (P := fun c : Cell => ∀ p ∈ c.paras, ApartPara p) hr fun _ _ hc => hc
    | _ => exact hP
  | resize l k x y =>
    cases edit hs
    refine apart_modPara hk fun p _ hh => all_modify hh fun c _ hc => ?_
    cases c with
    | run r => exact textLast_each (fun _ => rfl) (fun c t e => by cases c <;> first | exact e | cases e) hc
    | _ => exact hc
  | textTab l s =>
    cases edit hs
    refine apart_modPara hk fun p _ hh => apart_addRun hh (textLast_map (M := fun _ => none) ?_)
    rw [List.map_append, addText_pieces]
    exact ht
  | place l k x y z =>
    cases edit hs
    refine apart_modPara hk fun p _ hh => all_modify hh fun c _ hc => ?_
    cases c with
    | run r => exact textLast_each (fun _ => rfl) (fun c t e => by cases c <;> first | exact e | cases e) hc
    | _ => exact hc
  | keep names =>
    cases edit hs
    intro x hx
    replace hx : x ∈ keepBody names f.items := hx
    rw [keepBody, keepLoop_filter] at hx
    exact hk x (List.mem_filter.1 hx).1
  | drop name =>
    cases edit hs
    intro x hx
    replace hx : x ∈ dropDrawingOf name f.items := hx
    rw [dropDrawingOf_each] at hx
    obtain ⟨y, hy, rfl⟩ := List.mem_map.1 hx
    have ho := hk y hy
    cases y with
    | para p => exact apart_dropPara name ho
    | sect s => trivial
    | table t =>
      intro r hr c hc p hp
      obtain ⟨r', hr', rfl⟩ := List.mem_map.1 hr
      obtain ⟨c', hc', rfl⟩ := List.mem_map.1 hc
      obtain ⟨p', hp', rfl⟩ := List.mem_map.1 hp
      exact apart_dropPara name (ho r' hr' c' hc' p' hp')
  | keepIn l names =>
    cases edit hs
    refine apart_modPara hk fun p _ hh c hc => ?_
    simp only [Para.keepElements, keepLoop_filter] at hc
    exact hh c (List.mem_filter.1 hc).1
  | dropIn l name => cases edit hs; exact apart_modPara hk fun p _ hh => apart_dropPara name hh

omit [GoEnv] in
theorem apart_run : ∀ {cs : List Call} {f : Doc} {bs : List Block} {w : World}, (∀ c ∈ cs, c.Apart) → BuiltUp ImageNamed 0 f bs →
    (∀ x ∈ f.items, ApartItem x) → (∀ g ∈ w, g.rels.length < 2 ^ 62) → run [f] (cs.map (Call.op 0)) = .ok w →
    ∀ g ∈ w, ∀ x ∈ g.items, ApartItem x := by
  intro cs
  induction cs with
  | nil =>
    intro f bs w ht h hk _ hr
    simp only [List.map_nil, run, Res.ok.injEq] at hr
    subst hr
    simpa using hk
  | cons c cs ih =>
    intro f bs w ht h hk hl hr
    simp only [List.map_cons, run] at hr
    split at hr
    · rename_i w1 h1
      have hl1 : ∀ g, w1[0]? = some g → g.rels.length < 2 ^ 62 := by
        intro g hd
        obtain ⟨g', hg', e⟩ := (run_wevo hr).old 0 g hd
        have := e.rels_le
        have := hl g' (List.mem_of_getElem? hg')
        omega
      obtain ⟨f1, rfl, hb⟩ := built_step h hl1 (fun _ _ _ _ _ hd => ⟨_, _, _, _, _, hd, rfl⟩) rfl h1
      exact ih (fun c hc => ht c (.tail _ hc)) hb (apart_step h rfl h1 rfl (ht c (.head _)) hk) hl hr
    · cases hr
    · cases hr


omit [GoEnv] [ImgEnv] in
theorem apart_safe {p : Para} (rule : MergeRule) (h : ApartPara p) : p.MergeSafe rule := by
  have key : ∀ (cs : List PChild) (prev : Option Run), (∀ c ∈ cs, ApartChild c) → SafeFrom rule prev true cs := by
    intro cs
    induction cs with
    | nil => intro prev _; cases prev <;> trivial
    | cons c cs ih =>
      intro prev h
      have hc := h c (.head _)
      have hi := fun prev => ih prev fun x hx => h x (.tail _ hx)
      cases c with
      | run r =>
        cases prev with
        | none => exact hi _
        | some pr =>
          simp only [SafeFrom]
          split
          · exact ⟨trivial, .inl hc, hi _⟩
          · exact hi _
      | _ => exact hc.elim
  unfold Para.MergeSafe
  rcases p with ⟨props, cs, file⟩
  cases cs with
  | nil => trivial
  | cons c cs =>
    have hc := h c (.head _)
    cases c with
    | run r => exact key cs _ fun x hx => h x (.tail _ hx)
    | _ => exact hc.elim

omit [GoEnv] [ImgEnv] in
theorem getPara_apart {items : List BItem} {l : Loc} {p : Para} (h : ∀ x ∈ items, ApartItem x)
    (hp : getPara items l = some p) : ApartPara p := by
  cases l with
  | body i =>
    simp only [getPara] at hp
    split at hp
    · rename_i q hq
      cases hp
      exact h _ (List.mem_of_getElem? hq)
    · cases hp
  | cell i r c j =>
    simp only [getPara] at hp
    split at hp
    · rename_i t ht
      simp only [bind, Option.bind_eq_some_iff] at hp
      obtain ⟨row, h1, cell, h2, h3⟩ := hp
      exact h _ (List.mem_of_getElem? ht) row (List.mem_of_getElem? h1) cell (List.mem_of_getElem? h2) p
        (List.mem_of_getElem? h3)
    · cases hp

omit [GoEnv] in
/-- **C25 and C29, after building calls.** A new document is built by any calls that add no links, and in whose texts tabs and
line breaks come before the text.  `MergeText` with any rule then changes the printed text of no paragraph of the body or of
a cell, and with a rule that looks only at the formatting a second `MergeText` changes nothing at all. -/
theorem C25_calls_partial [HashEnv] (cs : List Call) (ht : ∀ c ∈ cs, c.Apart) (w : World)
    (hr : run [] (.new :: cs.map (Call.op 0)) = .ok w) (hl : ∀ g ∈ w, g.rels.length < 2 ^ 62) (f : Doc) (hf : w[0]? = some f)
    (l : Loc) (p : Para) (hp : getPara f.items l = some p) (rule : MergeRule) :
    (p.mergeText rule).str w = p.str w ∧
      ∀ R : Option RPr → Option RPr → Bool, (∀ a b, rule a b = R a.rpr b.rpr) →
        (p.mergeText rule).mergeText rule = p.mergeText rule := by
  have ha : ∀ x ∈ f.items, ApartItem x :=
    apart_run (cs := cs) ht (built_none _ _) (by simp [Doc.new]) hl hr f (List.mem_of_getElem? hf)
  have hs := apart_safe rule (getPara_apart ha hp)
  exact ⟨C25_text_partial w p rule hs, fun R hR => C29_idempotent_partial p rule R hR hs⟩

end

/-! ## In the file -/

/-- A run of texts, tabs and breaks -/
def LetterRun (c : PChild) : Prop := ∃ r, c = .run r ∧ ∀ d, RChild.drawing d ∉ r.children

theorem joinFrom_letters : ∀ {cs : List RChild} {s : String}, (∀ d, RChild.drawing d ∉ cs) →
    ∀ d, RChild.drawing d ∉ joinFrom s cs := by
  have flush : ∀ (s : String) d, RChild.drawing d ∉ flushText s := by
    intro s d
    unfold flushText
    split <;> simp
  intro cs
  induction cs with
  | nil => intro s _; exact flush s
  | cons c cs ih =>
    intro s h d
    have ht : ∀ d, RChild.drawing d ∉ cs := fun d hd => h d (.tail _ hd)
    cases c with
    | text t => exact ih ht d
    | drawing e => exact absurd (.head _) (h e)
    | tab t =>
      simp only [joinFrom, List.mem_append, List.mem_cons, reduceCtorEq, false_or, not_or]
      exact ⟨flush s d, ih ht d⟩
    | br b =>
      simp only [joinFrom, List.mem_append, List.mem_cons, reduceCtorEq, false_or, not_or]
      exact ⟨flush s d, ih ht d⟩

theorem mergeFrom_letters {rule : MergeRule} : ∀ {cs : List PChild} {prev : Option Run} {adj : Bool},
    (∀ c ∈ cs, LetterRun c) → (∀ r, prev = some r → ∀ d, RChild.drawing d ∉ r.children) →
    ∀ c ∈ mergeFrom rule prev adj cs, LetterRun c := by
  have emit : ∀ {prev : Option Run} {adj : Bool}, (∀ r, prev = some r → ∀ d, RChild.drawing d ∉ r.children) →
      ∀ c ∈ emitRun prev adj, LetterRun c := by
    intro prev adj h c hc
    cases prev with
    | none => simp [emitRun] at hc
    | some r =>
      cases adj with
      | false => simp [emitRun] at hc
      | true =>
        simp only [emitRun, List.mem_singleton] at hc
        exact ⟨r, hc, h r rfl⟩
  intro cs
  induction cs with
  | nil => intro prev adj _ hp; simp only [mergeFrom]; exact emit hp
  | cons c cs ih =>
    intro prev adj h hp
    have ht := fun c hc => h c (.tail _ hc)
    obtain ⟨r, rfl, hr⟩ := h c (.head _)
    have hj : ∀ q, some r.joined = some q → ∀ d, RChild.drawing d ∉ q.children := by
      intro q hq
      cases hq
      exact joinFrom_letters hr
    cases prev with
    | none => simp only [mergeFrom]; exact ih ht hj
    | some pr =>
      simp only [mergeFrom]
      split
      · refine ih ht fun q hq => ?_
        cases hq
        refine joinFrom_letters fun d hd => ?_
        rcases List.mem_append.1 hd with hd | hd
        · exact hp pr rfl d hd
        · exact hr d hd
      · intro c hc
        rcases List.mem_append.1 hc with hc | hc
        · exact emit hp c hc
        · exact ih ht hj c hc

section
variable [HashEnv]

/-- Saving and opening cleans the text of such runs. -/
theorem saved_letters {me : DocId} {p : Para} (h : ∀ c ∈ p.children, LetterRun c) (w w1 : World) :
    ∃ t, p.str w = .ok t ∧ (normPara (some me) (clPara p)).str w1 = .ok (clean t) := by
  have pieces : ∀ cs : List RChild, (∀ d, RChild.drawing d ∉ cs) → ∃ t, rchildrenStr w cs = .ok t ∧
      rchildrenStr w1 (normRChildren (some me) (clRChildren cs)) = .ok (clean t) := by
    intro cs
    induction cs with
    | nil => exact fun _ => ⟨"", rfl, rfl⟩
    | cons c cs ih =>
      intro h
      obtain ⟨t, e1, e2⟩ := ih fun d hd => h d (.tail _ hd)
      have h1 : clean "\t" = "\t" := by decide
      have h2 : clean "\n" = "\n" := by decide
      cases c with
      | text x =>
        refine ⟨x.text ++ t, by simp [rchildrenStr, RChild.str, e1], ?_⟩
        simp [rchildrenStr, clRChildren, normRChildren, clRChild, normRChild, RChild.str, e2, clText, clean_join]
      | tab x =>
        refine ⟨"\t" ++ t, by simp [rchildrenStr, RChild.str, e1], ?_⟩
        simp [rchildrenStr, clRChildren, normRChildren, clRChild, normRChild, RChild.str, e2, clean_join, h1]
      | br x =>
        refine ⟨"\n" ++ t, by simp [rchildrenStr, RChild.str, e1], ?_⟩
        simp [rchildrenStr, clRChildren, normRChildren, clRChild, normRChild, RChild.str, e2, clean_join, h2]
      | drawing d => exact absurd (.head _) (h d)
  rcases p with ⟨props, cs, file⟩
  simp only [clPara, normPara, Para.str]
  replace h : ∀ c ∈ cs, LetterRun c := h
  induction cs with
  | nil => exact ⟨"", rfl, rfl⟩
  | cons c cs ih =>
    obtain ⟨t, e1, e2⟩ := ih fun x hx => h x (.tail _ hx)
    obtain ⟨⟨a, b, c, ds⟩, rfl, hr⟩ := h c (.head _)
    obtain ⟨s, e3, e4⟩ := pieces ds hr
    refine ⟨s ++ t, ?_, ?_⟩
    · simp only [pchildrenStr, PChild.str, e3, Res.bind_ok, e1]; rfl
    · simp only [clPChildren, clPChild, clRun, normPChildren, normPChild, normRun, pchildrenStr, PChild.str, e4,
        Res.bind_ok, e2, clean_join]; rfl

end

theorem letters_view {R : String → Option String} {M : String → Option Bytes} {p : Para} (ha : ApartPara p)
    (h : ∀ b ∈ viewPara R M p, b.written = true) : ∀ c ∈ p.children, LetterRun c := by
  intro c hc
  have hb : ∀ b ∈ viewChild R M c, b.written = true := fun b hb => h b (List.mem_flatMap.2 ⟨c, hc, hb⟩)
  have hr := ha c hc
  cases c with
  | run r =>
    refine ⟨r, rfl, fun d hd => ?_⟩
    simp only [viewChild] at hb
    split at hb
    · have := hb _ (List.mem_map_of_mem hd)
      have hg : ∀ b g, (viewGraphic M b g).written = false := by
        intro b g
        unfold viewGraphic
        repeat' split
        all_goals rfl
      rcases d with ⟨_ | i, _ | a⟩
      · cases this
      · simp only [viewPiece] at this; rw [hg] at this; cases this
      · simp only [viewPiece] at this; rw [hg] at this; cases this
      · cases this
    · cases hb _ (.head _)
  | _ => exact hr.elim

/-- **C25, after building calls, in the file.** A new document is built by calls as in `C25_calls_partial`, `MergeText` with any
rule is called for all its paragraphs, it is saved and opened again.  Every paragraph, of the body or of a cell, into which
the calls put only texts, tabs and breaks then prints what they put there, with the characters that XML cannot carry
replaced. -/
theorem C25_calls_file_partial [GoEnv] [ImgEnv] [HashEnv] (cs : List Call) (ht : ∀ c ∈ cs, c.Apart) (f : Doc)
    (hr : run [] (.new :: cs.map (Call.op 0)) = .ok [f]) (hl : f.rels.length < 2 ^ 62) (rule : MergeRule) (out : Saved)
    (ho : Saves { f with items := mapParas (·.mergeText rule) f.items } out none) (me : DocId) :
    ∃ g, unpack me (reread out) = (g, none) ∧ ∀ (l : Loc) (bits : List Bit), bitsAt (result cs) l = some bits →
      (∀ b ∈ bits, b.written = true) →
      ∃ q, getPara g.items l = some q ∧ ∀ w1 : World, q.str w1 = .ok (clean (bitsWords bits)) := by
  have hl' : ∀ g ∈ [f], g.rels.length < 2 ^ 62 := by intro g hg; rw [List.mem_singleton.1 hg]; exact hl
  have hmk : Makes [f] [result cs] := makes_calls (.new .start) hr hl'
  obtain ⟨h1, _, h3, _⟩ := makes_program hmk
  have hm : f ∈ [f] := .head _
  obtain ⟨g, g1, _, _, g4, _⟩ := C87_opens _ out ho ((program_fine h1 f hm).1.good (h3 f hm)) me
  refine ⟨g, g1, fun l bits hb hw => ?_⟩
  obtain ⟨f', e, hu⟩ := built_calls hr hl'
  cases e
  rw [← hu.shows, bitsAt_shows] at hb
  obtain ⟨p, hx, hv⟩ := Option.map_eq_some_iff.1 hb
  have ha := getPara_apart (apart_run (cs := cs) ht (built_none _ _) (by simp [Doc.new]) hl' hr f hm) hx
  have hp0 : OwnPara 0 p := getPara_own hu.own hx
  have hno : Bit.other ∉ viewPara f.referTarget f.pictureData p := by
    rw [hv]; intro h; cases hw _ h
  have hp : p.str [f] = .ok (bitsWords bits) := by
    rw [plain_printed (plain_view (w := [f]) (d := 0) rfl hp0.1 (M := f.pictureData) hno (by
      rw [hv]; intro b hb; have := hw b hb; cases b <;> first | rfl | cases this)),
      ← words_view (w := [f]) (d := 0) rfl hp0.1 (M := f.pictureData) hno, hv]
  have hs := apart_safe rule ha
  have hlt : ∀ c ∈ (p.mergeText rule).children, LetterRun c := by
    rw [mergeText_safe p rule hs]
    exact mergeFrom_letters (letters_view ha (by rw [hv]; exact hw)) (by simp)
  refine ⟨normPara (some me) (clPara (p.mergeText rule)), ?_, fun w1 => ?_⟩
  · rw [g4, normBody, List.map_map]
    refine (getPara_through (through_norm me) _ l).trans ?_
    have hmm : getPara (mapParas (·.mergeText rule) f.items) l = (getPara f.items l).map (·.mergeText rule) := by
      rw [mapParas_map]
      exact getPara_through (through_merge _) _ l
    rw [hmm, hx]
    rfl
  · obtain ⟨t, t1, t2⟩ := saved_letters (me := me) hlt [f] w1
    rw [C25_text_partial [f] p rule hs, hp] at t1
    cases t1
    exact t2

/-! ## What is lost otherwise, for all texts -/

section
variable [HashEnv]

/-- C25 is false of the code for all texts and formatting: a tab, and a run that is merged into its run and has a tab between
two texts.  The second text is printed twice and the first not at all. -/
theorem C25_always_lost (w : World) (p : Para) (r1 r2 : Run) (t u : Tab) (x y : Text) (hx : x.text ≠ "") (hy : y.text ≠ "")
    (hp : p.children = [.run { r1 with children := [.tab t] }, .run { r2 with children := [.text x, .tab u, .text y] }])
    (rule : MergeRule) (R : Option RPr → Option RPr → Bool) (hR : ∀ a b, rule a b = R a.rpr b.rpr)
    (hm : R r1.rpr r2.rpr = true) :
    p.str w = .ok ("\t" ++ x.text ++ "\t" ++ y.text) ∧
    (p.mergeText rule).str w = .ok ("\t" ++ y.text ++ "\t" ++ y.text) := by
  rcases p with ⟨pp, cs, fi⟩
  simp only at hp
  subst hp
  constructor
  · simp [Para.str, pchildrenStr, PChild.str, rchildrenStr, RChild.str, pure, String.append_assoc]
  · simp [Para.mergeText, allocPChildren, allocRChildren, Heap.newRun, mergeLoop, Heap.newText, gather, Heap.text,
      Heap.addText, hx, hy, hR, hm, mergeInto, Heap.kids, mergeKids, Heap.pushKid, HPC.load, Heap.loadRun, HRun.load,
      HRC.load, List.modify, List.modifyTailIdx, List.modifyTailIdx.go, List.modifyHead, Para.str, pchildrenStr,
      PChild.str, rchildrenStr, RChild.str, pure, String.append_assoc]

/-- C25 is false of the code for all texts and links: what is behind a link and merged with what is before it is moved
before the link. -/
theorem C25_always_moved (w : World) (p : Para) (r1 r2 : Run) (l : Hyperlink) (x y : Text) (hx : x.text ≠ "")
    (hy : y.text ≠ "")
    (hp : p.children = [.run { r1 with children := [.text x] }, .link l, .run { r2 with children := [.text y] }])
    (rule : MergeRule) (R : Option RPr → Option RPr → Bool) (hR : ∀ a b, rule a b = R a.rpr b.rpr)
    (hm : R r1.rpr r2.rpr = true) (s : String) (hs : PChild.str w p.file (.link l) = .ok s) :
    p.str w = .ok (x.text ++ s ++ y.text) ∧ (p.mergeText rule).str w = .ok (x.text ++ y.text ++ s) := by
  rcases p with ⟨pp, cs, fi⟩
  simp only at hp
  subst hp
  simp only at hs
  constructor
  · simp only [Para.str, pchildrenStr, hs]
    simp [PChild.str, rchildrenStr, RChild.str, pure, String.append_assoc]
  · simp [Para.mergeText, allocPChildren, allocRChildren, Heap.newRun, mergeLoop, Heap.newText, gather, Heap.text,
      Heap.addText, hx, hy, hR, hm, mergeInto, Heap.kids, mergeKids, HPC.load, Heap.loadRun, HRun.load,
      HRC.load, List.modify, List.modifyTailIdx, List.modifyTailIdx.go, List.modifyHead, Para.str, pchildrenStr]
    rw [hs]
    simp [PChild.str, rchildrenStr, RChild.str, pure, String.append_assoc]

/-- C25 and C29 are false of the code for all texts and formatting: a tab, and a run that is merged into its run and has a text
and a tab.  The text is lost: an empty one is in its place, which a second `MergeText` removes. -/
theorem C25_always_gone (w : World) (p : Para) (r1 r2 : Run) (t u : Tab) (x : Text) (hx : x.text ≠ "")
    (hp : p.children = [.run { r1 with children := [.tab t] }, .run { r2 with children := [.text x, .tab u] }])
    (rule : MergeRule) (R : Option RPr → Option RPr → Bool) (hR : ∀ a b, rule a b = R a.rpr b.rpr)
    (hm : R r1.rpr r2.rpr = true) :
    p.str w = .ok ("\t" ++ x.text ++ "\t") ∧ (p.mergeText rule).str w = .ok "\t\t" ∧
    ((p.mergeText rule).children = [.run { r1 with children := [.tab t, .text {}, .tab u] }]) ∧
    (((p.mergeText rule).mergeText rule).children = [.run { r1 with children := [.tab t, .tab u] }]) := by
  rcases p with ⟨pp, cs, fi⟩
  simp only at hp
  subst hp
  have once : (Para.mergeText ⟨pp, [.run { r1 with children := [.tab t] }, .run { r2 with children := [.text x, .tab u] }], fi⟩
      rule).children = [.run { r1 with children := [.tab t, .text {}, .tab u] }] := by
    simp [Para.mergeText, allocPChildren, allocRChildren, Heap.newRun, mergeLoop, Heap.newText, gather, Heap.text,
      Heap.addText, hx, hR, hm, mergeInto, Heap.kids, mergeKids, Heap.pushKid, HPC.load, Heap.loadRun, HRun.load,
      HRC.load, List.modify, List.modifyTailIdx, List.modifyTailIdx.go, List.modifyHead]
  refine ⟨?_, ?_, once, ?_⟩
  · simp [Para.str, pchildrenStr, PChild.str, rchildrenStr, RChild.str, pure, String.append_assoc]
  · rw [Para.str, once]
    simp [pchildrenStr, PChild.str, rchildrenStr, RChild.str, pure]
  · generalize Para.mergeText ⟨pp, _, fi⟩ rule = q at once
    rcases q with ⟨qp, cs, qf⟩
    simp only at once
    subst once
    simp [Para.mergeText, allocPChildren, allocRChildren, Heap.newRun, mergeLoop, Heap.newText, gather, Heap.text,
      HPC.load, Heap.loadRun, HRun.load, HRC.load]

/-- `MergeSamePropRuns` is such a rule, and merges runs without formatting. -/
example : ∃ R : Option RPr → Option RPr → Bool, (∀ a b, mergeSamePropRuns a b = R a.rpr b.rpr) ∧ R (some {}) (some {}) = true ∧
    ({ text := "a" } : Text).text ≠ "" :=
  ⟨fun x y => mergeSamePropRuns { rpr := x } { rpr := y }, fun _ _ => rfl, by decide, by decide⟩

end

/-! ## Case: texts, a tab, a break in front of a text, a text in a cell -/

local instance apartEnv : GoEnv := ⟨fun _ => none, fun _ => false, fun _ => false⟩
local instance apartImg : ImgEnv := ⟨fun _ => none⟩
local instance apartHash : HashEnv := ⟨fun _ => ""⟩

def apartCalls : List Call :=
  [.paragraph, .text (.body 0) "a", .tab (.body 0), .text (.body 0) "\n\tb", .text (.body 0) "c",
   .formatRun (.body 0) 3 (fun r => { r with bold := true }), .table 1 1 0 none, .cellParagraph 1 0 0,
   .text (.cell 1 0 0 0) "d", .textTab (.cell 1 0 0 0) ""]

example : ∀ c ∈ apartCalls, c.Apart := by
  simp only [apartCalls, List.forall_mem_cons, Call.Apart, true_and]
  refine ⟨⟨[], [.text "a"], by decide, by simp, by simp⟩,
    ⟨[.newline, .tab], [.text "b"], by decide, by simp, by simp⟩, ⟨[], [.text "c"], by decide, by simp, by simp⟩,
    ⟨[], [.text "d"], by decide, by simp, by simp⟩, ⟨[.tab], [], by decide, by simp, by simp⟩, ?_⟩
  intro x hx
  cases hx

example : (match run [] (.new :: apartCalls.map (Call.op 0)) with
    | .ok [f] => (f.rels.length == 3) && (match getPara f.items (.body 0), getPara f.items (.cell 1 0 0 0) with
      | some p, some q => (p.str [f] == .ok "a\t\n\tbc") && (p.children.length == 4) &&
          ((p.mergeText mergeSamePropRuns).children.length == 2) && (q.str [f] == .ok "d\t")
      | _, _ => false)
    | _ => false) = true := by decide +kernel

example : bitsAt (result apartCalls) (.body 0) = some [.text "a", .tab, .newline, .tab, .text "b", .text "c"] ∧
    bitsAt (result apartCalls) (.cell 1 0 0 0) = some [.text "d", .tab] := by decide +kernel

/-- After these calls and `MergeText` the document is saved. -/
example : ∃ (f : Doc) (out : Saved), run [] (.new :: apartCalls.map (Call.op 0)) = .ok [f] ∧ f.rels.length < 2 ^ 62 ∧
    Saves { f with items := mapParas (·.mergeText mergeSamePropRuns) f.items } out none := by
  have key : (match run [] (.new :: apartCalls.map (Call.op 0)) with
    | .ok [f] => (f.rels.length == 3) && (f.tmpfslst == []) && f.media.isEmpty
    | _ => false) = true := by decide +kernel
  split at key
  · rename_i f hr
    simp only [Bool.and_eq_true, beq_iff_eq, List.isEmpty_iff] at key
    obtain ⟨⟨k1, k2⟩, k3⟩ := key
    obtain ⟨out, ho, _⟩ := saves_bare { f with items := mapParas (·.mergeText mergeSamePropRuns) f.items } k2 k3
    exact ⟨f, out, hr, by rw [k1]; decide, ho⟩
  · cases key

end Docx
