import Verif.SpecWords
import Verif.Props.Split

/-!
# C36: splitting and appending keep the words, whatever the drawings are
-/

namespace Docx

/-! ## Lemmas -/

theorem words_run {R : CopyRules} {cs cs' : List RChild} (h : Each (RChildCopied R) cs cs') :
    cs'.map RChild.words = cs.map RChild.words := by
  induction h with
  | nil => rfl
  | @cons c c' cs cs' hc _ ih =>
    have : c'.words = c.words := by
      cases c with
      | drawing d => obtain ⟨d', rfl, _⟩ := hc; rfl
      | text t => have e : c' = .text t := hc; rw [e]
      | tab t => have e : c' = .tab t := hc; rw [e]
      | br t => have e : c' = .br t := hc; rw [e]
    simp only [List.map_cons, this, ih]

theorem words_para {w w' : World} {to : DocId} {t t' : Doc} {p p' : Para}
    (ht' : w'[to]? = some t') (h : ParaCopied (fullRules w to t t') to p p') (hl : p.Linked w) :
    p'.words w' = p.words w := by
  obtain ⟨_, hfile, hc⟩ := h
  unfold Para.words
  unfold Para.Linked at hl
  generalize p.children = cs at *
  generalize p'.children = cs' at *
  rw [hfile]
  congr 1
  induction hc with
  | nil => rfl
  | @run r r' cs cs' hr _ ih =>
    rw [List.map_cons, List.map_cons, ih fun h hm => hl h (by simp [hm])]
    simp only [PChild.words, words_run hr.2.2.2]
  | @link h h' cs cs' hid hr _ ih =>
    rw [List.map_cons, List.map_cons, ih fun h hm => hl h (by simp [hm])]
    obtain ⟨tgt, h1, h2⟩ := hid
    have h3 := hl h (by simp)
    obtain ⟨tgt0, h4⟩ := Option.ne_none_iff_exists'.1 h3
    have h5 : w'.resolve (some to) h'.id = some tgt := by simp only [World.resolve, ht']; exact h1
    simp only [PChild.words, h4, h5, h2 tgt0 h4, hr.2.2.1]
  | @dropped h cs cs' hdrop _ _ => exact (hl h (by simp) hdrop).elim
  | @rpr x cs cs' _ ih =>
    rw [List.map_cons, List.map_cons, ih fun h hm => hl h (by simp [hm])]
    rfl

theorem each_map {α β} {R : α → α → Prop} {f g : α → β} : ∀ {l l' : List α}, Each R l l' →
    (∀ a ∈ l, ∀ a', R a a' → g a' = f a) → l'.map g = l.map f := by
  intro l l' h
  induction h with
  | nil => intro _; rfl
  | @cons a a' l l' h1 _ ih =>
    intro hf
    rw [List.map_cons, List.map_cons, hf a (by simp) a' h1, ih fun a hm => hf a (by simp [hm])]

theorem words_item {w w' : World} {to : DocId} {t t' : Doc} {x x' : BItem} (ht' : w'[to]? = some t')
    (h : ItemCopied (fullRules w to t t') to x x') (hl : ∀ p ∈ x.paras, p.Linked w) :
    itemWords w' x' = itemWords w x := by
  cases x with
  | para p =>
    obtain ⟨p', rfl, hp⟩ := h
    simp only [itemWords, words_para ht' hp (hl p (by simp [BItem.paras]))]
  | sect s => have e : x' = .sect s := h; rw [e]; rfl
  | table tb =>
    obtain ⟨tb', rfl, _, _, hr⟩ := h
    refine each_map hr fun r hrm r' hr' => each_map hr'.2 fun c hcm c' hc' => each_map hc'.2.2 fun p hpm p' hp' => ?_
    refine words_para ht' hp' (hl p ?_)
    simp only [BItem.paras, List.mem_flatMap]
    exact ⟨r, hrm, c, hcm, hpm⟩

/-! ## C36 -/

/-- **C36, what words are.** Of a paragraph that has no drawings and whose links all resolve, String prints
exactly the words. -/
theorem C36_words_printed [HashEnv] (w : World) (p : Para) (hl : p.Linked w) (hd : p.drawings = []) :
    p.str w = .ok (p.words w) := by
  have hd : ∀ r, .run r ∈ p.children → ∀ d, .drawing d ∉ r.children := by
    intro r hr d hm
    have := (mem_drawings p d).2 ⟨r, hr, hm⟩
    rw [hd] at this
    cases this
  unfold Para.str Para.words
  unfold Para.Linked at hl
  generalize p.children = cs at *
  induction cs with
  | nil => rfl
  | cons c cs ih =>
    have ih := ih (fun h hm => hl h (by simp [hm])) (fun r hm => hd r (by simp [hm]))
    have hc : c.str w p.file = .ok (c.words w p.file) := by
      cases c with
      | rpr x => rfl
      | link h =>
        have h3 := hl h (by simp)
        simp only [PChild.str, PChild.words]
        cases hf : p.file with
        | none => simp [World.resolve, hf] at h3
        | some i =>
          cases hw : w[i]? with
          | none => simp [World.resolve, hf, hw] at h3
          | some f =>
            simp only [World.resolve, hf, hw, ne_eq] at h3
            obtain ⟨tgt, hr⟩ := Option.ne_none_iff_exists'.1 h3
            simp only [Option.bind_some, hw, World.resolve, hr, Option.getD_some]
      | run r =>
        have hr := hd r (by simp)
        simp only [PChild.str, PChild.words]
        generalize r.children = rs at *
        induction rs with
        | nil => rfl
        | cons a rs ihr =>
          have ha : a.str w = .ok a.words := by
            cases a with
            | drawing d => exact (hr d (by simp)).elim
            | text t => rfl
            | tab t => rfl
            | br t => rfl
          rw [rchildrenStr, ha, ihr fun d hm => hr d (by simp [hm]), List.map_cons, String.join_cons]
          rfl
    rw [pchildrenStr, hc, ih, List.map_cons, String.join_cons]
    rfl

/-- **C36, the words after a split.** Whatever drawings there are, every paragraph and every table whose links all
resolve has the same words after the split. -/
theorem C36_split_words (w w' : World) (d : DocId) (f : Doc)
    (sep : World → Para → Res Bool) (ds : List DocId) (hf : w[d]? = some f)
    (h : w.splitByParagraph d sep = .ok (w', ds)) :
    ∃ chunks : List (List BItem), chunks.flatten = f.items ∧
      Each (fun chunk nd => ∃ t', w'[nd]? = some t' ∧ (t'.rels.length < 2 ^ 64 →
        Each (fun x x' => (∀ p ∈ x.paras, p.Linked w) → itemWords w' x' = itemWords w x)
          chunk t'.items)) chunks ds := by
  obtain ⟨chunks, h1, h2⟩ := split_full hf h (fun nd t t' => fullRules w nd t t')
    (fun _ _ h0 ha hr => full_obeys h0 ha hr)
  refine ⟨chunks, h1, h2.mono ?_⟩
  rintro chunk nd ⟨_, t', ht', hc⟩
  exact ⟨t', ht', fun hr => (hc hr).mono fun x x' hx hs => words_item ht' hx hs⟩

/-- **C36, the words after appending.** -/
theorem C36_append_words (w w' : World) (to src : DocId) (t s t' : Doc)
    (ht : w[to]? = some t) (hs : w[src]? = some s) (h : w.appendFile to src = .ok w')
    (ht' : w'[to]? = some t') (hc : CounterAhead t) (hr : Room t t') :
    ∃ copies, t'.items = t.items ++ copies ∧
      Each (fun x x' => (∀ p ∈ x.paras, p.Linked w) → itemWords w' x' = itemWords w x) s.items copies := by
  have ha := (counterAhead_iff t).1 hc
  obtain ⟨t2, copies, h1, h2, h3⟩ := append_full ht hs h (R := fun t' => fullRules w to t t')
    (F := fun t' => Before to t') (by
      intro t2 ht2
      rw [ht'] at ht2; obtain rfl := Option.some.inj ht2
      exact ⟨⟨t', ht', .refl _⟩, full_obeys (unique_at ht) ha hr⟩)
  rw [ht'] at h1; obtain rfl := Option.some.inj h1
  exact ⟨copies, h2, h3.mono fun x x' hx hs => words_item ht' hx hs⟩

/-! ## The hypotheses can be met -/

/-- The document of `Verif.Props.Split` with links, a picture and a table: its links resolve, it can be split and
appended, and a copy of the picture has another name. -/
example : (∀ x ∈ exItems, ∀ p ∈ x.paras, p.Linked [exDoc exItems]) ∧
    (∃ w' t1 t2, World.splitByParagraph [exDoc exItems] 0 exRule = .ok (w', [1, 2]) ∧ w'[1]? = some t1 ∧
      w'[2]? = some t2 ∧ t1.items.flatMap (itemWords w') ++ t2.items.flatMap (itemWords w') =
        exItems.flatMap (itemWords [exDoc exItems]) ∧ t1.rels.length < 2 ^ 64 ∧
      t1.items.length = 2) := by
  refine ⟨?_, _, _, _, rfl, rfl, rfl, ?_, ?_, rfl⟩
  · intro x hx p hp h hm
    have : exItems.all (fun x => x.paras.all fun p => p.children.all fun c => match c with
      | .link h => (World.resolve [exDoc exItems] p.file h.id).isSome
      | _ => true) = true := by decide
    have := List.all_eq_true.1 (List.all_eq_true.1 (List.all_eq_true.1 this x hx) p hp) _ hm
    intro e
    simp only [e] at this
    cases this
  · decide
  · decide

end Docx
