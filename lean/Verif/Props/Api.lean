import Verif.Props.Ids
import Verif.Lemmas.Str

/-! # C11-C20: building documents -/

namespace Docx

/-- Test environment for texts of pictures. -/
@[reducible] def hashEnv : HashEnv := ⟨fun b => "md5:" ++ itoa (Int64.ofNat b.length)⟩

/-! ## C11 -/

/-- The document operations of C11 and the document they work on. -/
inductive AppendsOne : Op → DocId → (BItem → Prop) → Prop where
  | para (d) : AppendsOne (.addParagraph d) d (fun x => ∃ p, x = .para p ∧ p.children = [] ∧ p.props = none)
  | table (d r c w b) : AppendsOne (.addTable d r c w b) d (fun x => ∃ t, x = .table t)
  | twips (d r c w b) : AppendsOne (.addTableTwips d r c w b) d (fun x => ∃ t, x = .table t)
  | a3 (d) : AppendsOne (.withA3Page d) d
      (fun x => x = .sect { pgSz := some { w := 16838, h := 23811 } })
  | a4 (d) : AppendsOne (.withA4Page d) d
      (fun x => x = .sect { pgSz := some { w := 11906, h := 16838 } })

/-- **C11.** `AddParagraph`, `AddTable`, `AddTableTwips`, `WithA3Page` and `WithA4Page` add exactly one
item of the right kind at the end of the body of their document and change nothing else, in it or in
any other document. -/
theorem C11_append_only [ImgEnv] (w w' : World) (o : Op) (d : DocId) (kind : BItem → Prop)
    (ho : AppendsOne o d kind) (h : step w o = .ok w') :
    ∃ f x, w[d]? = some f ∧ kind x ∧ w' = w.set d { f with items := f.items ++ [x] } := by
  have main : ∀ {act : Doc → Res Doc},
      (∀ f f', act f = .ok f' → ∃ x, kind x ∧ f' = { f with items := f.items ++ [x] }) →
      w.onDoc d act = .ok w' →
      ∃ f x, w[d]? = some f ∧ kind x ∧ w' = w.set d { f with items := f.items ++ [x] } := by
    intro act ha h
    unfold World.onDoc at h
    split at h
    · simp at h
    · rename_i f hf
      obtain ⟨f', h1, h2⟩ := Res.bind_eq_ok.1 h
      simp only [Res.ok.injEq] at h2
      obtain ⟨x, hx, e⟩ := ha f f' h1
      exact ⟨f, x, hf, hx, by rw [← h2, e]⟩
  cases ho with
  | para =>
    refine main ?_ h
    intro f f' h; simp only [Res.ok.injEq] at h
    exact ⟨_, ⟨_, rfl, rfl, rfl⟩, h.symm⟩
  | table d row col width colors =>
    refine main ?_ h
    intro f f' h
    split at h
    · rename_i heq
      unfold Doc.addTable at heq
      simp only [Res.ok.injEq] at h; subst h
      split at heq
      · simp at heq
      · split at heq
        · simp at heq
        · simp only [Res.ok.injEq, Prod.mk.injEq] at heq
          exact ⟨_, ⟨_, rfl⟩, heq.1.symm⟩
    · simp at h
    · simp at h
  | twips =>
    refine main ?_ h
    intro f f' h; simp only [Res.ok.injEq] at h
    exact ⟨_, ⟨_, rfl⟩, h.symm⟩
  | a3 =>
    refine main ?_ h
    intro f f' h; simp only [Res.ok.injEq] at h
    exact ⟨_, rfl, h.symm⟩
  | a4 =>
    refine main ?_ h
    intro f f' h; simp only [Res.ok.injEq] at h
    exact ⟨_, rfl, h.symm⟩

example : ∃ w w' f, @run pngEnv [] [.new, .new, .addParagraph 1, .addLink 1 (.body 0) "a" "b"] = .ok w ∧
    @step pngEnv w (.addTable 1 2 3 0 none) = .ok w' ∧ w'[1]? = some f ∧ f.items.length = 2 ∧
    seenIds f = ["rId1", "rId2", "rId3", "rId4"] :=
  ⟨_, _, _, rfl, rfl, rfl, by decide, by decide⟩

/-! ## C12 -/

/-- The string `s` was put behind the text of a paragraph. -/
def Extends (before after : Res String) (s : String) : Prop :=
  after = match before with
    | .ok a => .ok (a ++ s)
    | .err e => .err e
    | .panic => .panic

theorem extends_bind {before : Res String} {s : String} :
    Extends before (do let a ← before; return a ++ s) s := by
  cases before <;> rfl

/-- **C12.** After `AddText(s)` the text of the paragraph is the old text followed by exactly `s`. -/
theorem C12_text_extended [HashEnv] (w : World) (p : Para) (s : String) :
    Extends (p.str w) ((p.addText s).1.str w) s := by
  have : (p.addText s).1.str w = (do let a ← p.str w; return a ++ s) := by
    unfold Para.addText
    split
    · rename_i e
      subst e
      exact str_addRun w p _ "\t" rfl
    · exact str_addRun w p _ s (linePieces_full w s)
  rw [this]
  exact extends_bind

/-- … also when the call is made in a world of documents: the paragraph at the location has the
longer text afterwards. -/
theorem C12_step [ImgEnv] [HashEnv] (w w' : World) (d : DocId) (l : Loc) (s : String)
    (h : step w (.addText d l s) = .ok w') :
    ∃ doc p doc' p', w[d]? = some doc ∧ getPara doc.items l = some p ∧ w'[d]? = some doc' ∧
      getPara doc'.items l = some p' ∧ Extends (p.str w) (p'.str w') s := by
  obtain ⟨doc, p, fid, f, f', p', doc1, hdoc, hp, hfid, hf, hact, hd1, hw1⟩ := onPara_ok h
  simp only [Res.ok.injEq, Prod.mk.injEq] at hact
  obtain ⟨rfl, rfl⟩ := hact
  have hset : w.set fid f = w := by
    have hl := lt_of_getElem? hf
    rw [List.getElem?_eq_getElem hl] at hf
    rw [← Option.some.inj hf]; simp
  rw [hset] at hw1 hd1
  rw [hdoc] at hd1; obtain rfl := Option.some.inj hd1
  refine ⟨doc, p, { doc with items := modPara doc.items l (fun _ => (p.addText s).1) },
    (p.addText s).1, hdoc, hp, ?_, getPara_modPara _ hp, ?_⟩
  · rw [hw1, List.getElem?_set_self (lt_of_getElem? hdoc)]
  · have : (p.addText s).1.str w' = (p.addText s).1.str w := by
      refine (str_congr _ ?_).symm
      rw [hw1]
      exact viewEq_set hdoc (fun _ _ => rfl) (fun _ => rfl)
    rw [this]
    exact C12_text_extended w p s

/-- **C12.** The texts created by `AddText` are not empty and contain no tab and no newline, and the
new run is the last child of the paragraph. -/
theorem C12_pieces (p : Para) (s : String) :
    (p.addText s).1.children = p.children ++ [.run (p.addText s).2] ∧
    ∀ t, .text t ∈ (p.addText s).2.children →
      t.text ≠ "" ∧ '\t' ∉ t.text.toList ∧ '\n' ∉ t.text.toList := by
  unfold Para.addText
  split
  · refine ⟨rfl, ?_⟩
    intro t ht
    simp [Para.addTab] at ht
  · refine ⟨rfl, ?_⟩
    intro t ht
    obtain ⟨ln, hln, k, hk, hne, rfl⟩ := linePieces_texts _ _ _ ht
    simp only [String.toList_ofList]
    refine ⟨?_, splitOn_notMem _ _ k hk, ?_⟩
    · intro e
      apply hne
      have := congrArg String.toList e
      simpa using this
    · intro hm
      exact splitOn_notMem _ _ ln hln (splitOn_sub _ _ k hk _ hm)

/-- Tabs and newlines at the start, in the middle, doubled and at the end. -/
example : (({} : Para).addText "\ta\t\tb\n\nc\t\n").2.children.length = 10 ∧
    @Para.str hashEnv [] (({} : Para).addText "\ta\t\tb\n\nc\t\n").1 = .ok "\ta\t\tb\n\nc\t\n" := by
  decide

/-! ## C13 -/

/-- **C13.** After `AddLink(text, link)` the text of the paragraph is the old text followed by
`[text](link)`.  The counter of its document is ahead of its ids (C02/C03), and no id shown in the
paragraph is a dangling one equal to the new id. -/
theorem C13_link_shown [ImgEnv] [HashEnv] (w w' : World) (d : DocId) (l : Loc) (text link : String)
    (h : step w (.addLink d l text link) = .ok w') :
    ∃ doc p fid f doc' p', w[d]? = some doc ∧ getPara doc.items l = some p ∧ p.file = some fid ∧
      w[fid]? = some f ∧ w'[d]? = some doc' ∧ getPara doc'.items l = some p' ∧
      (CounterAhead f → f.rID.toNat + 1 < 2 ^ 64 → ridOf (f.rID + 1) ∉ p.refs →
        Extends (p.str w) (p'.str w') ("[" ++ text ++ "](" ++ link ++ ")")) := by
  obtain ⟨doc, p, fid, f, f', p', doc1, hdoc, hp, hfid, hf, hact, hd1, hw1⟩ := onPara_ok h
  simp only [Res.ok.injEq, Prod.mk.injEq] at hact
  obtain ⟨rfl, rfl⟩ := hact
  have hdi : doc1.items = doc.items := by
    by_cases e : d = fid
    · subst e
      rw [hdoc] at hf; obtain rfl := Option.some.inj hf
      rw [List.getElem?_set_self (lt_of_getElem? hdoc)] at hd1
      rw [← Option.some.inj hd1]; rfl
    · rw [List.getElem?_set_ne (Ne.symm e), hdoc] at hd1
      rw [Option.some.inj hd1]
  refine ⟨doc, p, fid, f, { doc1 with items := modPara doc1.items l fun _ => (p.addLink f text link).2.1 },
    (p.addLink f text link).2.1, hdoc, hp, hfid, hf, ?_, ?_, ?_⟩
  · rw [hw1, List.getElem?_set_self (lt_of_getElem? hd1)]
  · rw [← hdi] at hp
    exact getPara_modPara _ hp
  · intro ha hroom hnew
    have hres := addLink_immediately f p text link ha hroom
    -- the world after the call, seen from the old paragraph
    have hview : ViewEq p.refs w w' := by
      rw [hw1]
      refine ViewEq.trans (viewEq_set hf (f' := (p.addLink f text link).1) ?_ ?_)
        (viewEq_set hd1 (fun _ _ => rfl) (fun _ => rfl))
      · intro id hid
        have hne : id ≠ ridOf (f.rID + 1) := fun e => hnew (e ▸ hid)
        rw [C04_referTarget_exact, C04_referTarget_exact]
        have : (p.addLink f text link).1.rels =
            f.rels ++ [⟨ridOf (f.rID + 1), relHyperlink, link, relTargetMode⟩] := rfl
        rw [this, List.find?_append]
        have : List.find? (fun r => r.id == id)
            [(⟨ridOf (f.rID + 1), relHyperlink, link, relTargetMode⟩ : Rel)] = none := by
          simp [Ne.symm hne]
        rw [this]; simp
      · intro n; rfl
    obtain ⟨f1, hf1, e1⟩ := onPara_evo (l := l) (p' := (p.addLink f text link).2.1) hf hd1
    rw [← hw1] at hf1
    have hres' := e1.resolves hres
    have hstr : (p.addLink f text link).2.1.str w' =
        (do let a ← p.str w'; return a ++ ("[" ++ text ++ "](" ++ link ++ ")")) := by
      show pchildrenStr w' p.file (p.children ++ [.link (p.addLink f text link).2.2]) = _
      rw [pchildrenStr_append]
      simp only [pchildrenStr, PChild.str, hfid, Option.bind_some, hf1, hres', Res.bind_ok,
        Res.pure_eq, String.append_empty]
      unfold Para.str
      rw [hfid]
      rfl
    rw [hstr, ← str_congr p hview]
    exact extends_bind

/-- Without the hypothesis on dangling ids the old part of the text can change: a paragraph with a
link whose id `rId4` resolves to nothing shows that id, and after `AddLink` the new target. -/
theorem C13_dangling_id : ∃ w w' doc doc' p p',
    @run pngEnv [] [.new, .edit 0 (fun _ => [.para { children := [.link { id := "rId4", run := {} }], file := some 0 }])]
      = .ok w ∧ @step pngEnv w (.addLink 0 (.body 0) "t" "u") = .ok w' ∧
    w[0]? = some doc ∧ getPara doc.items (.body 0) = some p ∧ @Para.str hashEnv w p = .ok "[](rId4)" ∧
    w'[0]? = some doc' ∧ getPara doc'.items (.body 0) = some p' ∧
    @Para.str hashEnv w' p' = .ok "[](u)[t](u)" :=
  ⟨_, _, _, _, _, _, rfl, rfl, rfl, rfl, by decide, rfl, rfl, by decide⟩

example : ∃ w w' doc' p', @run pngEnv []
      [.new, .addParagraph 0, .addText 0 (.body 0) "see ", .addLink 0 (.body 0) "a" "b"] = .ok w ∧
    @step pngEnv w (.addLink 0 (.body 0) "c" "d") = .ok w' ∧ w'[0]? = some doc' ∧
    getPara doc'.items (.body 0) = some p' ∧ @Para.str hashEnv w' p' = .ok "see [a](b)[c](d)" :=
  ⟨_, _, _, _, rfl, rfl, rfl, rfl, by decide⟩

end Docx
