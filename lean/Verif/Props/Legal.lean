import Verif.Lemmas.Legal
import Verif.Lemmas.XmlYields
import Verif.Lemmas.Pack
import Verif.Props.Print
import Verif.Props.Ids
import Verif.Props.Split

/-!
# C68: calls made with care return normally
-/

set_option linter.unusedSectionVars false

namespace Docx

/-- **C68.** A history of calls that are all made with care returns normally, whatever its length and
order, and leaves all paragraphs with a document and the media index in range. -/
theorem C68_careful [ImgEnv] (w : World) (os : List Op) (hw : w.Closed) (hm : MediaSafe w)
    (h : CarefulRun w os) : ∃ w', run w os = .ok w' ∧ w'.Closed ∧ MediaSafe w' := by
  induction os generalizing w with
  | nil => exact ⟨w, rfl, hw, hm⟩
  | cons o os ih =>
    have ho : o.Legal w := h [] o os rfl w rfl
    obtain ⟨w1, h1⟩ := step_returns ho (closed_iff.1 hw) hm
    obtain ⟨w', h2, h3, h4⟩ := ih w1 (closed_iff.2 (step_in ho (closed_iff.1 hw) h1)) (step_safe hm h1)
      (by
        intro pre o' post e w2 h2
        refine h (o :: pre) o' post (by rw [e]; rfl) w2 ?_
        simp only [run, h1]; exact h2)
    exact ⟨w', by simp only [run, h1]; exact h2, h3, h4⟩

/-- **C68, a whole program.** A program that starts without documents and makes its calls with care
never panics. -/
theorem C68_program [ImgEnv] (os : List Op) (h : CarefulRun [] os) : ∃ w', run [] os = .ok w' := by
  obtain ⟨w', h, _⟩ := C68_careful [] os (by intro f hf; simp at hf) (by intro d f hf; simp at hf) h
  exact ⟨w', h⟩

/-- **C68, exact.** What is asked before a call of a builder method is needed: the call returns normally
exactly when it was made with care.  (Bringing in data, splitting and appending are not builder methods.) -/
theorem C68_exact [ImgEnv] (w : World) (o : Op) (hw : w.Closed) (hm : MediaSafe w)
    (ho : match o with | .load .. | .edit .. | .append .. | .split .. => False | _ => True) :
    (∃ w', step w o = .ok w') ↔ o.Legal w := by
  refine ⟨?_, fun h => step_returns h (closed_iff.1 hw) hm⟩
  rintro ⟨w', h⟩
  have onDoc : ∀ {d act}, w.onDoc d act = .ok w' → d < w.length := by
    intro d act h
    unfold World.onDoc at h
    split at h
    · simp at h
    · rename_i hf; exact lt_of_getElem? hf
  have onPara : ∀ {d l act}, w.onPara d l act = .ok w' → HasPara w d l := by
    intro d l act h
    obtain ⟨doc, p, _, _, _, _, _, hdoc, hp, _⟩ := onPara_ok h
    exact ⟨doc, p, hdoc, hp⟩
  have pic : ∀ {f : Doc} {pic : Bytes}, (f.addPicture pic).2 ≠ .panic → HasWidth pic := by
    intro f pic h w0 h0 fmt e e0
    subst e0
    unfold Doc.addPicture at h
    simp only [e, scaleSize, if_true, ite_self] at h
    exact h rfl
  cases o with
  | new => trivial
  | load => exact ho.elim
  | edit => exact ho.elim
  | append => exact ho.elim
  | split => exact ho.elim
  | addParagraph => exact onDoc h
  | cellAddParagraph => exact onDoc h
  | addTableTwips => exact onDoc h
  | withA3Page => exact onDoc h
  | withA4Page => exact onDoc h
  | useTemplate => exact onDoc h
  | increaseID => exact onDoc h
  | addText => exact onPara h
  | addLink => exact onPara h
  | addInlineShape => exact onPara h
  | addAnchorShape => exact onPara h
  | addTable d row col width colors =>
    refine ⟨onDoc h, ?_⟩
    simp only [step, World.onDoc] at h
    split at h
    · simp at h
    · rename_i f hf
      obtain ⟨f', h1, h2⟩ := Res.bind_eq_ok.1 h
      unfold Doc.addTable at h1
      by_cases e1 : row < 0
      · simp [e1] at h1
      · by_cases e2 : row > 0 ∧ col < 0
        · simp [e1, e2] at h1
        · exact ⟨Int64.not_lt.1 e1, fun h => Int64.not_lt.1 fun h' => e2 ⟨h, h'⟩⟩
  | addInlineDrawing d l p =>
    refine ⟨onPara h, ?_⟩
    obtain ⟨doc, q, fid, f, f', p', doc1, hdoc, hp, hfid, hf, hact, hd1, rfl⟩ := onPara_ok h
    refine pic (f := f) fun e => ?_
    unfold Para.addInlineDrawing at hact
    cases hp : f.addPicture p with
    | mk f1 r => rw [hp] at e hact; simp only at e; subst e; simp at hact
  | addAnchorDrawing d l p =>
    refine ⟨onPara h, ?_⟩
    obtain ⟨doc, q, fid, f, f', p', doc1, hdoc, hp, hfid, hf, hact, hd1, rfl⟩ := onPara_ok h
    refine pic (f := f) fun e => ?_
    unfold Para.addAnchorDrawing at hact
    cases hp : f.addPicture p with
    | mk f1 r => rw [hp] at e hact; simp only at e; subst e; simp at hact

/-- **C68, without pictures.** A program that brings in no pictures may split and append any of its
documents, also by rules that look at the text of the paragraphs: nothing panics, and every paragraph and
every table of every document can be printed. -/
theorem C68_no_pictures [ImgEnv] [HashEnv] (os : List Op) (h : SimpleRun [] os)
    (hp : ∀ o ∈ os, o.Pictureless) : ∃ w', run [] os = .ok w' ∧
      ∀ f ∈ w', ∀ x ∈ f.items, ∃ s, itemText w' x = .ok s := by
  have hc : CarefulRun [] os := by
    suffices ∀ n pre, pre.length ≤ n → ∀ o post, os = pre ++ o :: post → ∀ w1, run [] pre = .ok w1 →
        o.Legal w1 from fun pre => this pre.length pre (Nat.le_refl _)
    intro n
    induction n with
    | zero =>
      intro pre hn o post e w1 h1
      obtain rfl := List.eq_nil_of_length_eq_zero (Nat.le_zero.1 hn)
      simp only [run, Res.ok.injEq] at h1; subst h1
      exact simple_legal (h _ _ _ e _ rfl) (by intro f hf; simp at hf) (by intro f hf; simp at hf)
    | succ n ih =>
      intro pre hn o post e w1 h1
      have hpre : CarefulRun [] pre := by
        intro pre' o' post' e' w2 h2
        refine ih pre' ?_ o' (post' ++ o :: post) (by rw [e, e']; simp) w2 h2
        have := congrArg List.length e'
        simp only [List.length_append, List.length_cons] at this
        omega
      obtain ⟨w', e2, h3, _⟩ := C68_careful [] pre (by intro f hf; simp at hf) (by intro d f hf; simp at hf) hpre
      rw [h1] at e2; obtain rfl := Res.ok.inj e2
      refine simple_legal (h _ _ _ e _ h1) (closed_iff.1 h3) ?_
      exact run_draws_of shape_notPicture (fun o ho => pictureless_ok (hp o (by rw [e]; simp [ho])))
        (by intro f hf; simp at hf) h1
  obtain ⟨w', h1, h2, _⟩ := C68_careful [] os (by intro f hf; simp at hf) (by intro d f hf; simp at hf) hc
  refine ⟨w', h1, ?_⟩
  have hd := run_draws_of shape_notPicture (fun o ho => pictureless_ok (hp o ho))
    (by intro f hf; simp at hf) h1
  intro f hf x hx
  have hin := closed_iff.1 h2 f hf x hx
  cases x with
  | sect s => exact ⟨_, rfl⟩
  | para p => exact (C31_paragraph_iff w' p).2 (para_printable (fileIn_owned hin) (hd f hf _ hx))
  | table t =>
    refine (C31_table_iff w' t).2 fun _ r hr c hc p hp => ?_
    have hpm : p ∈ (BItem.table t).paras := by
      simp only [BItem.paras, List.mem_flatMap]
      exact ⟨r, hr, c, hc, List.mem_of_mem_head? hp⟩
    obtain ⟨a, b⟩ := item_paras hpm hin
    exact para_printable (fileIn_owned a) fun d hd' => hd f hf _ hx d (b d hd')

section
variable [GoEnv]

theorem kept_in {n : Nat} {me : DocId} (h : me < n) {x : BItem} (hx : keptItem (some me) x) : ItemIn n x := by
  have hf : FileIn n (some me) := ⟨me, rfl, h⟩
  have para : ∀ {p : Para}, keptPara (some me) p → FileIn n p.file := by
    intro p hp
    obtain ⟨props, cs, f⟩ := p
    simp only [keptPara] at hp
    rw [hp.2.2]; exact hf
  cases x with
  | para p => exact para hx
  | sect s => trivial
  | table t =>
    intro r hr c hc
    obtain ⟨h1, h2⟩ := hx.2 r hr c hc
    exact ⟨by rw [h2]; exact hf, fun p hp => para (h1 p hp)⟩

theorem unpackEntry_inv {f g : Doc} {me : DocId} {e : Entry} {x : Option Err}
    (h : f.unpackEntry me e = (g, x)) (hk : keptBody (some me) f.items) (hi : IdxOK f) :
    keptBody (some me) g.items ∧ IdxOK g := by
  unfold Doc.unpackEntry at h
  split at h
  · unfold Doc.parseRels at h
    split at h
    · simp only [Prod.mk.injEq] at h; rw [← h.1]; exact ⟨hk, hi⟩
    · split at h <;> (simp only [Prod.mk.injEq] at h; rw [← h.1]; exact ⟨hk, idxOK_congr rfl rfl hi⟩)
  · split at h
    · unfold Doc.parseDocument at h
      split at h
      · simp only [Prod.mk.injEq] at h; rw [← h.1]; exact ⟨hk, hi⟩
      · simp only [Prod.mk.injEq] at h; rw [← h.1]
        exact ⟨decodeDocument_yields _ hk _, idxOK_congr rfl rfl hi⟩
    · split at h
      · unfold Doc.parseMedia at h
        split at h
        · simp only [Prod.mk.injEq] at h; rw [← h.1]; exact ⟨hk, hi⟩
        · split at h
          · simp only [Prod.mk.injEq] at h; rw [← h.1]; exact ⟨hk, hi⟩
          · simp only [Prod.mk.injEq] at h; rw [← h.1]; exact ⟨hk, addMedia_idxOK hi _⟩
      · simp only [Prod.mk.injEq] at h; rw [← h.1]; exact ⟨hk, idxOK_congr rfl rfl hi⟩

theorem unpackAll_inv {me : DocId} : ∀ {es : List Entry} {f g : Doc} {x : Option Err},
    f.unpackAll me es = (g, x) → keptBody (some me) f.items → IdxOK f →
    keptBody (some me) g.items ∧ IdxOK g := by
  intro es
  induction es with
  | nil =>
    intro f g x h hk hi
    simp only [Doc.unpackAll, Prod.mk.injEq] at h; rw [← h.1]; exact ⟨hk, hi⟩
  | cons e es ih =>
    intro f g x h hk hi
    simp only [Doc.unpackAll] at h
    split at h
    · rename_i f' h'
      obtain ⟨a, b⟩ := unpackEntry_inv h' hk hi
      exact ih h a b
    · rename_i f' x' h'
      simp only [Prod.mk.injEq] at h; rw [← h.1]
      exact unpackEntry_inv h' hk hi

/-- **C68, parsed documents.** A document that `Parse` returns, from whatever archive, fits into such a
program: afterwards all paragraphs still have a document and the media index is in range. -/
theorem C68_parsed (w : World) (a : Archive) (f : Doc) (x : Option Err) (hw : w.Closed)
    (hm : MediaSafe w) (h : unpack w.length a = (f, x)) : (w ++ [f]).Closed ∧ MediaSafe (w ++ [f]) := by
  have key : keptBody (some w.length) f.items ∧ IdxOK f := by
    unfold unpack at h
    have hi : IdxOK ({ relXmlns := "", tmplfs := some (zipFS a) } : Doc) := by intro name; simp
    split at h
    · rename_i g hg
      simp only [Prod.mk.injEq] at h; rw [← h.1]
      obtain ⟨h1, h2⟩ := unpackAll_inv hg (by intro i hi; simp at hi) hi
      exact ⟨h1, idxOK_congr rfl rfl h2⟩
    · rename_i g e hg
      simp only [Prod.mk.injEq] at h; rw [← h.1]
      exact unpackAll_inv hg (by intro i hi; simp at hi) hi
  refine ⟨closed_iff.2 (wIn_push ((closed_iff.1 hw).mono (by simp)) fun y hy => ?_), ?_⟩
  · exact kept_in (by simp) (key.1 y hy)
  · intro d g hg
    rcases Nat.lt_or_ge d w.length with hd | hd
    · rw [List.getElem?_append_left hd] at hg; exact hm d g hg
    · rw [List.getElem?_append_right hd] at hg
      cases hk' : d - w.length with
      | zero => rw [hk'] at hg; simp at hg; subst hg; exact idxOK_safe key.2
      | succ k => rw [hk'] at hg; simp at hg

end

/-! ## Examples -/

/-- A program with paragraphs, links, shapes, tables, splitting and appending. -/
def legalProgram : List Op :=
  [ .new, .addParagraph 0, .addText 0 (.body 0) "# one", .addTable 0 2 2 0 none, .cellAddParagraph 0 1 1 0,
    .addLink 0 (.cell 1 1 0 0) "text" "https://example.com", .addParagraph 0,
    .addInlineShape 0 (.body 2) 5 5 "s" "auto" "rect" none, .split 0 (@splitByText hashEnv (· == "# one")),
    .append 1 0, .append 0 0, .withA4Page 1 ]

theorem SimpleRun.nil [ImgEnv] (w : World) : SimpleRun w [] := by
  intro pre o post e; simp at e

theorem SimpleRun.cons [ImgEnv] {w w1 : World} {o : Op} {os : List Op} (h1 : o.Simple w)
    (h2 : step w o = .ok w1) (h3 : SimpleRun w1 os) : SimpleRun w (o :: os) := by
  intro pre o' post e w2 hw2
  cases pre with
  | nil =>
    simp only [List.nil_append, List.cons.injEq] at e
    simp only [run, Res.ok.injEq] at hw2
    rw [← e.1, ← hw2]; exact h1
  | cons a pre =>
    simp only [List.cons_append, List.cons.injEq] at e
    obtain ⟨rfl, e⟩ := e
    simp only [run, h2] at hw2
    exact h3 pre o' post e w2 hw2

/-- The program is made with care and has no pictures. -/
example : @SimpleRun pngEnv [] legalProgram ∧ ∀ o ∈ legalProgram, o.Pictureless := by
  let _ := pngEnv
  refine ⟨?_, ?_⟩
  · refine .cons trivial rfl ?_
    refine .cons (w1 := _) (show 0 < 1 by decide) rfl ?_
    refine .cons ⟨_, _, rfl, rfl⟩ rfl ?_
    refine .cons (show 0 < 1 ∧ _ by decide) rfl ?_
    refine .cons (show 0 < 1 by decide) rfl ?_
    refine .cons ⟨_, _, rfl, rfl⟩ rfl ?_
    refine .cons (show 0 < 1 by decide) rfl ?_
    refine .cons ⟨_, _, rfl, rfl⟩ rfl ?_
    refine .cons ⟨show 0 < 1 by decide, ?_⟩ rfl ?_
    · intro w1 p hp
      obtain ⟨s, hs⟩ := (@C31_paragraph_iff hashEnv w1 p).2 hp
      exact ⟨_, by simp only [splitByText, hs, Res.bind_ok]; rfl⟩
    refine .cons ⟨show 1 < 2 by decide, show 0 < 2 by decide⟩ rfl ?_
    refine .cons ⟨show 0 < 2 by decide, show 0 < 2 by decide⟩ rfl ?_
    refine .cons (show 1 < 2 by decide) rfl ?_
    exact .nil _
  · intro o ho
    simp only [legalProgram, List.mem_cons, List.not_mem_nil, or_false] at ho
    rcases ho with rfl | rfl | rfl | rfl | rfl | rfl | rfl | rfl | rfl | rfl | rfl | rfl <;> trivial

/-- What it leaves: two documents, the first with its items twice, the second with its part twice and a
page size. -/
example : ∃ w, @run pngEnv [] legalProgram = .ok w ∧ w.map (·.items.length) = [6, 7] := ⟨_, rfl, rfl⟩

/-- A parsed archive meets the hypotheses. -/
example [GoEnv] (a : Archive) : ∃ f x, unpack 0 a = (f, x) ∧ World.Closed [f] ∧ MediaSafe [f] :=
  ⟨_, _, rfl, C68_parsed [] a _ _ (by intro f hf; simp at hf) (by intro d f hf; simp at hf) rfl⟩

/-- Without care: a paragraph that the client made without a document. -/
example : @run pngEnv [] [.load [.para {}] [], .addLink 0 (.body 0) "a" "b"] = .panic := rfl

end Docx
