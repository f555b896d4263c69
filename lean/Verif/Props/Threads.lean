import Verif.Lemmas.Threads

/-!
# C96: threads that make, open, split and change their own documents
-/

set_option linter.unusedSectionVars false

namespace Docx

section
variable [GoEnv] [ImgEnv] [HashEnv]

/-- **C96, saving does not tell the difference.** Two documents that differ at most in the addresses of documents
are saved as the same files, with the same error. -/
theorem C96_saved {f g : Doc} (h : SameApart f g) (out : Saved) (e : Option Err) : Saves f out e ↔ Saves g out e := by
  have hf := files_apart h
  constructor
  · rintro (⟨h⟩ | ⟨h, hl⟩)
    · exact .noFile (hf ▸ h)
    · exact .order (hf ▸ h) hl
  · rintro (⟨h⟩ | ⟨h, hl⟩)
    · exact .noFile (hf.symm ▸ h)
    · exact .order (hf.symm ▸ h) hl

/-- **C96, a thread is on its own.** Any number of threads make, open, split, load, join and change documents, each
its own, in any order.  If all actions return, then each thread could have done its actions without the others; it
then has equally many documents, and the document with each number is the same apart from addresses. -/
theorem C96_alone {as : List (Nat × Act)} {s : Threads} (h : Interleaved {} as s) (t : Nat) :
    ∃ s1, Interleaved {} (onlyOf t as) s1 ∧ (s1.mine t).length = (s.mine t).length ∧
      s1.docs.length = (s1.mine t).length ∧
      ∀ k, k < (s.mine t).length → ∃ f g, s.doc t k = some f ∧ s1.doc t k = some g ∧ SameApart f g := by
  obtain ⟨alone, h1, h2⟩ := together h .nil OwnDocs.empty (fun _ => {}) (by
    intro t
    refine ⟨⟨place_inj (interleaved_own h OwnDocs.empty).1 t, fun d => rfl⟩, rfl, rfl⟩)
  obtain ⟨e, m, r⟩ := h2 t
  refine ⟨alone t, h1 t, by rw [m, List.length_map], by rw [r, List.length_range], fun k hk => ?_⟩
  have hlen : (s.mine t).length = (alone t).docs.length := by rw [m, r]; simp
  rw [hlen] at hk
  have hg : (alone t).docs[k]? = some (alone t).docs[k] := List.getElem?_eq_getElem hk
  have hr : ((alone t).mine t)[k]? = some k := by rw [r]; simp [hk]
  refine ⟨rnDoc (place s t) (alone t).docs[k], (alone t).docs[k], ?_, ?_, ?_⟩
  · simp only [Threads.doc, m, List.getElem?_map, hr, Option.map_some, Option.bind_some, e.same, hg]
  · simp only [Threads.doc, hr, Option.bind_some, hg]
  · exact (same_apart_rename _).symm

/-- **C96, the schedule does not matter.** Two runs in which a thread does the same actions: whatever the other
threads do, and whenever they do it, the thread has equally many documents in the end, and each of them is the same
apart from addresses and is saved as the same files. -/
theorem C96_schedules {as bs : List (Nat × Act)} {s s' : Threads} {t : Nat} (h : Interleaved {} as s)
    (h' : Interleaved {} bs s') (same : onlyOf t as = onlyOf t bs) :
    (s.mine t).length = (s'.mine t).length ∧
    ∀ k, k < (s.mine t).length → ∃ f g, s.doc t k = some f ∧ s'.doc t k = some g ∧ SameApart f g ∧
      ∀ out e, Saves f out e ↔ Saves g out e := by
  obtain ⟨s1, a1, a2, _, a3⟩ := C96_alone h t
  obtain ⟨s2, b1, b2, _, b3⟩ := C96_alone h' t
  rw [same] at a1
  have := interleaved_det a1 b1
  subst this
  refine ⟨a2.symm.trans b2, fun k hk => ?_⟩
  obtain ⟨f, x, f1, f2, f3⟩ := a3 k hk
  obtain ⟨g, y, g1, g2, g3⟩ := b3 k (b2 ▸ a2.symm ▸ hk)
  rw [f2] at g2
  cases g2
  have fg : SameApart f g := f3.trans g3.symm
  exact ⟨f, g, f1, g1, fg, C96_saved fg⟩

/-- **C96, texts.** What a thread reads from a paragraph of its documents does not depend on the other threads
either. -/
theorem C96_texts {as bs : List (Nat × Act)} {s s' : Threads} {t k i : Nat} {f g : Doc} {p q : Para}
    (h : Interleaved {} as s) (h' : Interleaved {} bs s') (same : onlyOf t as = onlyOf t bs)
    (hf : s.doc t k = some f) (hg : s'.doc t k = some g) (hp : f.items[i]? = some (.para p))
    (hq : g.items[i]? = some (.para q)) : p.str s.docs = q.str s'.docs := by
  have key : ∀ {as s f p}, Interleaved {} as s → s.doc t k = some f → f.items[i]? = some (.para p) →
      ∃ s1 f1 p1, Interleaved {} (onlyOf t as) s1 ∧ s1.doc t k = some f1 ∧ f1.items[i]? = some (.para p1) ∧
        p.str s.docs = p1.str s1.docs := by
    intro as s f p h hf hp
    obtain ⟨alone, h1, h2⟩ := together h .nil OwnDocs.empty (fun _ => {}) (by
      intro t
      refine ⟨⟨place_inj (interleaved_own h OwnDocs.empty).1 t, fun d => rfl⟩, rfl, rfl⟩)
    obtain ⟨e, m, r⟩ := h2 t
    simp only [Threads.doc, m, List.getElem?_map] at hf
    cases hk : ((alone t).mine t)[k]? with
    | none => rw [hk] at hf; cases hf
    | some d =>
      rw [hk] at hf
      simp only [Option.map_some, Option.bind_some, e.same] at hf
      cases hd : (alone t).docs[d]? with
      | none => rw [hd] at hf; cases hf
      | some f1 =>
        rw [hd] at hf
        simp only [Option.map_some, Option.some.injEq] at hf
        subst hf
        simp only [rnDoc, rnItems, List.getElem?_map] at hp
        cases hi : f1.items[i]? with
        | none => rw [hi] at hp; cases hp
        | some x =>
          rw [hi] at hp
          simp only [Option.map_some, Option.some.injEq] at hp
          cases x with
          | para p1 =>
            simp only [rnItem, BItem.para.injEq] at hp
            subst hp
            exact ⟨alone t, f1, p1, h1 t, by simp [Threads.doc, hk, hd], hi, para_str_rename e p1⟩
          | table x => simp [rnItem] at hp
          | sect x => simp [rnItem] at hp
  obtain ⟨s1, f1, p1, a1, a2, a3, a4⟩ := key h hf hp
  obtain ⟨s2, g1, q1, b1, b2, b3, b4⟩ := key h' hg hq
  rw [same] at a1
  have := interleaved_det a1 b1
  subst this
  rw [a2] at b2; cases b2
  rw [a3] at b3; cases b3
  rw [a4, b4]

/-- **C96, no interference.** An action of one thread leaves every document of every other thread as it is. -/
theorem C96_untouched {as : List (Nat × Act)} {s : Threads} {t u : Nat} {a : Act} {w' : World}
    (h : Interleaved {} as s) (ha : Acts s u a w') (htu : t ≠ u) (k : Nat) :
    (s.grow u w').doc t k = s.doc t k := by
  have o := (interleaved_own h OwnDocs.empty).1
  have hrun : Interleaved s [(u, a)] (s.grow u w') := .cons ha .nil
  obtain ⟨of, _, hpre⟩ := interleaved_own hrun o
  obtain ⟨alone, _, h2⟩ := together h hrun OwnDocs.empty (fun _ => {})
    fun t => ⟨⟨place_inj of t, fun d => rfl⟩, rfl, rfl⟩
  obtain ⟨_, _, kept, _⟩ := together_step o ha .nil h2
  have hm : (s.grow u w').mine t = s.mine t := grow_other s htu w'
  simp only [Threads.doc, hm]
  cases hk : (s.mine t)[k]? with
  | none => rfl
  | some d =>
    have hd : d ∈ s.mine t := List.mem_of_getElem? hk
    refine kept.2 d (o.bound t d hd) fun e he => ?_
    obtain ⟨_, m, r⟩ := h2 t
    have hk' := hk
    rw [m, List.getElem?_map] at hk'
    cases hj : ((alone t).mine t)[k]? with
    | none => rw [hj] at hk'; cases hk'
    | some j =>
      rw [hj] at hk'
      simp only [Option.map_some, Option.some.injEq] at hk'
      have hjl : j < ((s.grow u w').mine t).length := by
        have := List.mem_of_getElem? hj
        rw [r] at this
        have := List.mem_range.1 this
        rw [hm, m, r]
        simpa using this
      exact place_apart of htu hjl e (hk'.trans he)

end

/-! ## A concrete case -/

section
variable [GoEnv] [ImgEnv] [HashEnv]

/-- One thread makes a document with two paragraphs, one of them with a link, and splits it before the second. -/
def threadA : List Act :=
  [.call .new, .call (.addParagraph 0), .call (.addText 0 (.body 0) "a"), .call (.addLink 0 (.body 0) "x" "http://x"),
   .call (.addParagraph 0), .call (.addText 0 (.body 1) "b"), .split 0 (· == "b")]

/-- Another opens a file and loads its contents into a further document. -/
def threadB : List Act := [.opening [⟨"word/media/image1.png", .ok ⟨[1, 2], none⟩⟩], .load 0 id, .call (.addParagraph 1)]

/-- The second thread first -/
def firstB : List (Nat × Act) := threadB.map (1, ·) ++ threadA.map (0, ·)

/-- The second thread in between -/
def betweenB : List (Nat × Act) := (threadA.take 4).map (0, ·) ++ threadB.map (1, ·) ++ (threadA.drop 4).map (0, ·)

/-- Both schedules can be run, and they put the documents at different addresses: the hypotheses of
`C96_schedules` and `C96_texts` hold for both threads. -/
example : ∃ s s' : Threads, Interleaved {} firstB s ∧ Interleaved {} betweenB s' ∧
    (∀ t, t < 2 → onlyOf t firstB = onlyOf t betweenB) ∧
    s.mine 0 = [2, 3, 4] ∧ s'.mine 0 = [0, 3, 4] ∧ s.mine 1 = [0, 1] ∧ s'.mine 1 = [1, 2] := by
  refine ⟨_, _,
    .cons (.opening rfl) (.cons (.load (f := _) (fun _ _ => rfl) rfl rfl) (.cons (.call trivial (by decide) rfl)
      (.cons (.call trivial (by decide) rfl) (.cons (.call trivial (by decide) rfl)
      (.cons (.call trivial (by decide) rfl) (.cons (.call trivial (by decide) rfl)
      (.cons (.call trivial (by decide) rfl) (.cons (.call trivial (by decide) rfl)
      (.cons (.split rfl rfl) .nil))))))))),
    .cons (.call trivial (by decide) rfl) (.cons (.call trivial (by decide) rfl)
      (.cons (.call trivial (by decide) rfl) (.cons (.call trivial (by decide) rfl)
      (.cons (.opening rfl) (.cons (.load (f := _) (fun _ _ => rfl) rfl rfl) (.cons (.call trivial (by decide) rfl)
      (.cons (.call trivial (by decide) rfl) (.cons (.call trivial (by decide) rfl)
      (.cons (.split rfl rfl) .nil))))))))),
    ?_, rfl, rfl, rfl, rfl⟩
  intro t ht
  rcases t with _ | _ | t
  · rfl
  · rfl
  · omega

end

end Docx
