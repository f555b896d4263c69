import Verif.Lemmas.Evo

/-!
# The template of a document changes only by `UseTemplate`

Histories leave the template, its list of files and the place they are read from as they are.
-/

namespace Docx

/-- The two documents take their template files from the same place. -/
def SameTheme (f g : Doc) : Prop :=
  g.template = f.template ∧ g.tmplfs = f.tmplfs ∧ g.tmpfslst = f.tmpfslst

theorem SameTheme.refl (f : Doc) : SameTheme f f := ⟨rfl, rfl, rfl⟩

theorem SameTheme.trans {f g h : Doc} (a : SameTheme f g) (b : SameTheme g h) : SameTheme f h :=
  ⟨b.1.trans a.1, b.2.1.trans a.2.1, b.2.2.trans a.2.2⟩

/-- Document `d` is still there and has the same template. -/
def KeepAt (d : DocId) (w w' : World) : Prop :=
  ∀ f, w[d]? = some f → ∃ f', w'[d]? = some f' ∧ SameTheme f f'

theorem KeepAt.refl (d : DocId) (w : World) : KeepAt d w w := fun f h => ⟨f, h, .refl f⟩

theorem KeepAt.trans {d : DocId} {w w' w'' : World} (a : KeepAt d w w') (b : KeepAt d w' w'') :
    KeepAt d w w'' := fun f h => by
  obtain ⟨f', h', e⟩ := a f h
  obtain ⟨f'', h'', e'⟩ := b f' h'
  exact ⟨f'', h'', e.trans e'⟩

theorem Touch.keep {d to : DocId} {w w' : World} (t : Touch to w w') : KeepAt d w w' := by
  intro f h
  by_cases hd : d = to
  · subst hd
    obtain ⟨f', h', e⟩ := t.evo f h
    exact ⟨f', h', e.same.2⟩
  · exact ⟨f, (t.other d hd).trans h, .refl f⟩

theorem KeepAt.set {d d' : DocId} {w : World} {f f' : Doc} (h : w[d']? = some f) (e : d = d' → SameTheme f f') :
    KeepAt d w (w.set d' f') := by
  have hl := lt_of_getElem? h
  intro g hg
  by_cases hd : d = d'
  · subst hd
    rw [h] at hg; obtain rfl := Option.some.inj hg
    exact ⟨f', by simp [hl], e rfl⟩
  · exact ⟨g, by simpa [List.getElem?_set, Ne.symm hd] using hg, .refl g⟩

theorem KeepAt.push {d : DocId} {w : World} {b : Doc} : KeepAt d w (w ++ [b]) := fun f h =>
  ⟨f, by rw [List.getElem?_append_left (lt_of_getElem? h)]; exact h, .refl f⟩

theorem pushItem_keep {d : DocId} (w : World) (to : DocId) (x : BItem) : KeepAt d w (w.pushItem to x) := by
  unfold World.pushItem
  split
  · exact .refl _ _
  · rename_i t ht
    exact .set ht fun _ => ⟨rfl, rfl, rfl⟩

theorem appendItems_keep {d to : DocId} : ∀ {xs : List BItem} {w w' : World},
    appendItems w to xs = .ok w' → KeepAt d w w' := by
  intro xs
  induction xs with
  | nil => intro w w' h; simp only [appendItems, Res.ok.injEq] at h; subst h; exact .refl _ _
  | cons x xs ih =>
    intro w w' h
    simp only [appendItems] at h
    obtain ⟨⟨w1, c⟩, h1, h2⟩ := Res.bind_eq_ok.1 h
    exact ((BItem.copymedia_touch h1).keep.trans (pushItem_keep _ _ _)).trans (ih h2)

theorem splitFill_keep {d : DocId} {sep nd} : ∀ {is : List BItem} {w w' : World} {cnt left},
    splitFill sep nd w cnt is = .ok (w', left) → KeepAt d w w' := by
  intro is
  induction is with
  | nil =>
    intro w w' cnt left h
    simp only [splitFill, Res.ok.injEq, Prod.mk.injEq] at h; rw [← h.1]; exact .refl _ _
  | cons i is ih =>
    intro w w' cnt left h
    cases i with
    | para p =>
      simp only [splitFill] at h
      obtain ⟨b, hb, h⟩ := Res.bind_eq_ok.1 h
      split at h
      · simp only [Res.ok.injEq, Prod.mk.injEq] at h; rw [← h.1]; exact .refl _ _
      · obtain ⟨⟨w1, c⟩, h1, h2⟩ := Res.bind_eq_ok.1 h
        exact ((Para.copymedia_touch h1).keep.trans (pushItem_keep _ _ _)).trans (ih h2)
    | table t =>
      simp only [splitFill] at h
      obtain ⟨⟨w1, c⟩, h1, h2⟩ := Res.bind_eq_ok.1 h
      exact ((Table.copymedia_touch h1).keep.trans (pushItem_keep _ _ _)).trans (ih h2)
    | sect s =>
      simp only [splitFill] at h
      exact (pushItem_keep _ _ _).trans (ih h)

theorem splitLoop_keep {d : DocId} {sep} {f : Doc} : ∀ {n : Nat} {is : List BItem} {w w' : World} {docs docs'},
    splitLoop sep f n w docs is = .ok (w', docs') → KeepAt d w w' := by
  intro n
  induction n with
  | zero => intro is w w' docs docs' h; simp [splitLoop] at h
  | succ n ih =>
    intro is w w' docs docs' h
    cases is with
    | nil =>
      simp only [splitLoop, Res.ok.injEq, Prod.mk.injEq] at h; rw [← h.1]; exact .refl _ _
    | cons i is =>
      simp only [splitLoop] at h
      obtain ⟨⟨w1, c⟩, h1, h2⟩ := Res.bind_eq_ok.1 h
      have e := (KeepAt.push (d := d) (w := w) (b := splitDoc f)).trans (splitFill_keep h1)
      simp only at h2
      split at h2
      · exact e.trans (ih h2)
      · simp only [Res.pure_eq, Res.ok.injEq, Prod.mk.injEq] at h2; rw [← h2.1]; exact e

theorem onDoc_keep {d d' : DocId} {w w' : World} {act : Doc → Res Doc}
    (ha : d = d' → ∀ f f', act f = .ok f' → SameTheme f f') (h : w.onDoc d' act = .ok w') : KeepAt d w w' := by
  unfold World.onDoc at h
  split at h
  · simp at h
  · rename_i f hf
    obtain ⟨f', h1, h2⟩ := Res.bind_eq_ok.1 h
    simp only [Res.ok.injEq] at h2; subst h2
    exact .set hf fun e => ha e _ _ h1

theorem onPara_keep {d d' : DocId} {w w' : World} {l : Loc} {act : Doc → Para → Res (Doc × Para)}
    (ha : ∀ f p f' p', act f p = .ok (f', p') → SameTheme f f') (h : w.onPara d' l act = .ok w') :
    KeepAt d w w' := by
  unfold World.onPara at h
  split at h
  · simp at h
  · split at h
    · simp at h
    · split at h
      · simp at h
      · split at h
        · simp at h
        · rename_i f hf
          obtain ⟨⟨f', p'⟩, h1, h2⟩ := Res.bind_eq_ok.1 h
          have e : KeepAt d w (w.set _ f') := .set hf fun _ => ha _ _ _ _ h1
          simp only at h2
          split at h2
          · simp at h2
          · rename_i hd
            simp only [Res.ok.injEq] at h2; subst h2
            exact e.trans (.set hd fun _ => ⟨rfl, rfl, rfl⟩)

theorem addPicture_keep [ImgEnv] (f : Doc) (pic : Bytes) : SameTheme f (f.addPicture pic).1 := by
  unfold Doc.addPicture
  split
  · exact .refl _
  · simp only
    split <;> exact ⟨rfl, rfl, rfl⟩

theorem step_keep [ImgEnv] {d : DocId} {w w' : World} {o : Op} (ho : ∀ t l fs, o ≠ .useTemplate d t l fs)
    (h : step w o = .ok w') : KeepAt d w w' := by
  have items : ∀ (f f' : Doc) (g : Doc → List BItem), (.ok { f with items := g f } : Res Doc) = .ok f' → SameTheme f f' := by
    intro f f' g h; simp only [Res.ok.injEq] at h; subst h; exact ⟨rfl, rfl, rfl⟩
  cases o with
  | new => simp only [step, Res.ok.injEq] at h; subst h; exact .push
  | load items media => simp only [step, Res.ok.injEq] at h; subst h; exact .push
  | addParagraph d => exact onDoc_keep (fun _ f f' h => items f f' (fun f => (f.addParagraph d).items) h) h
  | cellAddParagraph d i r c =>
    refine onDoc_keep ?_ h
    intro _ f f' h; simp only [Res.ok.injEq] at h; subst h; exact ⟨rfl, rfl, rfl⟩
  | addTable d row col width colors =>
    refine onDoc_keep ?_ h
    intro _ f f' h
    unfold Doc.addTable at h
    split at h
    · rename_i heq
      simp only [Res.ok.injEq] at h; subst h
      split at heq
      · simp at heq
      · split at heq
        · simp at heq
        · simp only [Res.ok.injEq, Prod.mk.injEq] at heq
          rw [← heq.1]; exact ⟨rfl, rfl, rfl⟩
    · simp at h
    · simp at h
  | addTableTwips d rows cols width colors =>
    refine onDoc_keep ?_ h
    intro _ f f' h; simp only [Res.ok.injEq] at h; subst h; exact ⟨rfl, rfl, rfl⟩
  | withA3Page d =>
    refine onDoc_keep ?_ h
    intro _ f f' h; simp only [Res.ok.injEq] at h; subst h; exact ⟨rfl, rfl, rfl⟩
  | withA4Page d =>
    refine onDoc_keep ?_ h
    intro _ f f' h; simp only [Res.ok.injEq] at h; subst h; exact ⟨rfl, rfl, rfl⟩
  | useTemplate d' t l tfs =>
    refine onDoc_keep ?_ h
    intro e; subst e; exact absurd rfl (ho t l tfs)
  | increaseID d name =>
    refine onDoc_keep ?_ h
    intro _ f f' h; simp only [Res.ok.injEq] at h; subst h; exact ⟨rfl, rfl, rfl⟩
  | addText d l text =>
    refine onPara_keep ?_ h
    intro f p f' p' h; simp only [Res.ok.injEq, Prod.mk.injEq] at h; rw [← h.1]; exact .refl _
  | addLink d l text link =>
    refine onPara_keep ?_ h
    intro f p f' p' h; simp only [Res.ok.injEq, Prod.mk.injEq] at h; rw [← h.1]
    exact ⟨rfl, rfl, rfl⟩
  | addInlineDrawing d l pic =>
    refine onPara_keep ?_ h
    intro f p f' p' h
    have e := addInlineDrawing_fst p f pic
    split at h <;> simp only [Res.ok.injEq, Prod.mk.injEq, reduceCtorEq] at h <;>
      (rename_i heq; rw [heq] at e; rw [← h.1]; simp only at e; rw [e]; exact addPicture_keep f pic)
  | addAnchorDrawing d l pic =>
    refine onPara_keep ?_ h
    intro f p f' p' h
    have e := addAnchorDrawing_fst p f pic
    split at h <;> simp only [Res.ok.injEq, Prod.mk.injEq, reduceCtorEq] at h <;>
      (rename_i heq; rw [heq] at e; rw [← h.1]; simp only at e; rw [e]; exact addPicture_keep f pic)
  | addInlineShape d l sw sh name bw prst ln =>
    refine onPara_keep ?_ h
    intro f p f' p' h; simp only [Res.ok.injEq, Prod.mk.injEq] at h; rw [← h.1]
    exact ⟨rfl, rfl, rfl⟩
  | addAnchorShape d l sw sh name bw prst ln =>
    refine onPara_keep ?_ h
    intro f p f' p' h; simp only [Res.ok.injEq, Prod.mk.injEq] at h; rw [← h.1]
    exact ⟨rfl, rfl, rfl⟩
  | append f af =>
    simp only [step] at h
    split at h
    · simp at h
    · unfold World.appendFile at h
      split at h
      · simp at h
      · exact appendItems_keep h
  | split d sep =>
    simp only [step] at h
    split at h
    · rename_i heq
      simp only [Res.ok.injEq] at h; subst h
      unfold World.splitByParagraph at heq
      split at heq
      · simp at heq
      · exact splitLoop_keep heq
    · simp at h
    · simp at h
  | edit d g =>
    refine onDoc_keep ?_ h
    intro _ f f' h; simp only [Res.ok.injEq] at h; subst h; exact ⟨rfl, rfl, rfl⟩

/-- A history without `UseTemplate` on a document leaves its template. -/
theorem run_keep [ImgEnv] {d : DocId} : ∀ {os : List Op} {w w' : World},
    (∀ t l fs, .useTemplate d t l fs ∉ os) → run w os = .ok w' → KeepAt d w w' := by
  intro os
  induction os with
  | nil => intro w w' _ h; simp only [run, Res.ok.injEq] at h; subst h; exact .refl _ _
  | cons o os ih =>
    intro w w' ho h
    simp only [run] at h
    split at h
    · rename_i h1
      exact (step_keep (fun t l fs e => ho t l fs (by simp [e])) h1).trans
        (ih (fun t l fs e => ho t l fs (by simp [e])) h)
    · simp at h
    · simp at h

end Docx
