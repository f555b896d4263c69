import Verif.Spec
import Verif.Lemmas.Merge

/-! # `MergeText` on values: the pointer program computes `mergeV` when every merge is safe -/

namespace Docx

/-! ## Joining texts -/

@[simp] theorem flushText_empty : flushText "" = [] := rfl

theorem flushText_ne {s : String} (h : s ≠ "") : flushText s = [.text { text := s }] := by
  simp [flushText, h]

/-- the children before the text being read, and that text -/
def pend (s : String) : List RChild → List RChild × String
  | [] => ([], s)
  | .text x :: cs => pend (s ++ x.text) cs
  | .tab x :: cs => (flushText s ++ .tab x :: (pend "" cs).1, (pend "" cs).2)
  | .br x :: cs => (flushText s ++ .br x :: (pend "" cs).1, (pend "" cs).2)
  | .drawing x :: cs => (flushText s ++ .drawing x :: (pend "" cs).1, (pend "" cs).2)

theorem joinFrom_other {o : RChild} (ho : ∀ t, o ≠ .text t) (s : String) (cs : List RChild) :
    joinFrom s (o :: cs) = flushText s ++ o :: joinFrom "" cs := by
  cases o with
  | text t => exact absurd rfl (ho t)
  | _ => rfl

theorem joinFrom_append (xs : List RChild) : ∀ (s : String) (ys : List RChild),
    joinFrom s (xs ++ ys) = (pend s xs).1 ++ joinFrom (pend s xs).2 ys := by
  induction xs with
  | nil => intro s ys; rfl
  | cons c xs ih => intro s ys; cases c <;> simp [joinFrom, pend, ih]

theorem joinFrom_eq_pend (s : String) (xs : List RChild) :
    joinFrom s xs = (pend s xs).1 ++ flushText (pend s xs).2 := by
  have := joinFrom_append xs s []
  simpa [joinFrom] using this

theorem pend_last (xs : List RChild) : ∀ (s : String) (t : Text), (pend s xs).1.getLast? ≠ some (.text t) := by
  induction xs with
  | nil => intro s t; simp [pend]
  | cons c xs ih =>
    intro s t
    have key : ∀ (d : RChild), (∀ t, d ≠ .text t) → (flushText s ++ d :: (pend "" xs).1).getLast? ≠ some (.text t) := by
      intro d hd
      rw [List.getLast?_append]
      simp only [List.getLast?_cons]
      cases hl : (pend "" xs).1.getLast? with
      | none => simp; exact hd t
      | some y => simp; intro e; exact ih "" t (by rw [hl, e])
    cases c with
    | text x => exact ih _ t
    | tab x => exact key _ (by simp)
    | br x => exact key _ (by simp)
    | drawing x => exact key _ (by simp)

/-- the text that is open at the end of joined children -/
theorem pend_of_joined {P : List RChild} (hP : joinTexts P = P) :
    (∀ x, P.getLast? = some (.text x) → P = (pend "" P).1 ++ [.text x] ∧ (pend "" P).2 = x.text ∧
      x.text ≠ "" ∧ x.space = "") ∧
    ((∀ x, P.getLast? ≠ some (.text x)) → P = (pend "" P).1 ∧ (pend "" P).2 = "") := by
  have e : P = (pend "" P).1 ++ flushText (pend "" P).2 := by
    rw [← joinFrom_eq_pend]; exact hP.symm
  by_cases hs : (pend "" P).2 = ""
  · rw [hs, flushText_empty, List.append_nil] at e
    refine ⟨fun x hx => ?_, fun _ => ⟨e, hs⟩⟩
    rw [e] at hx
    exact absurd hx (pend_last P "" x)
  · rw [flushText_ne hs] at e
    refine ⟨fun x hx => ?_, fun h => ?_⟩
    · have hx' := hx
      rw [e] at hx'
      simp only [List.getLast?_append, List.getLast?_singleton, Option.some_or, Option.some.injEq,
        RChild.text.injEq] at hx'
      subst hx'
      exact ⟨e, rfl, hs, rfl⟩
    · exfalso
      have hl := congrArg List.getLast? e
      simp only [List.getLast?_append, List.getLast?_singleton, Option.some_or] at hl
      exact h _ hl

theorem joinFrom_flush (s z : String) (ys) : joinFrom s (flushText z ++ ys) = joinFrom (s ++ z) ys := by
  by_cases h : z = ""
  · subst h; simp
  · rw [flushText_ne h]; rfl

theorem joinFrom_joinFrom (xs : List RChild) : ∀ s z, joinFrom s (joinFrom z xs) = joinFrom (s ++ z) xs := by
  induction xs with
  | nil =>
    intro s z
    have := joinFrom_flush s z []
    show joinFrom s (flushText z) = _
    simpa using this
  | cons c xs ih =>
    intro s z
    cases c with
    | text x => simp only [joinFrom]; rw [ih, String.append_assoc]
    | tab x => simp only [joinFrom]; rw [joinFrom_flush]; simp [joinFrom, ih]
    | br x => simp only [joinFrom]; rw [joinFrom_flush]; simp [joinFrom, ih]
    | drawing x => simp only [joinFrom]; rw [joinFrom_flush]; simp [joinFrom, ih]

theorem joinTexts_idem (xs : List RChild) : joinTexts (joinTexts xs) = joinTexts xs := by
  simp [joinTexts, joinFrom_joinFrom]

theorem joinTexts_append_join (xs ys : List RChild) :
    joinTexts (xs ++ joinTexts ys) = joinTexts (xs ++ ys) := by
  simp [joinTexts, joinFrom_append, joinFrom_joinFrom]

theorem joinTexts_join_append (xs ys : List RChild) :
    joinTexts (joinTexts xs ++ ys) = joinTexts (xs ++ ys) := by
  unfold joinTexts
  rw [joinFrom_append xs, joinFrom_eq_pend "" xs]
  generalize hp : pend "" xs = p
  obtain ⟨a, l⟩ := p
  -- the part before the open text is already joined
  have key : ∀ (xs : List RChild) (s : String) (ys : List RChild),
      joinFrom "" ((pend s xs).1 ++ (flushText (pend s xs).2 ++ ys)) =
        (pend s xs).1 ++ joinFrom (pend s xs).2 ys := by
    intro xs
    induction xs with
    | nil => intro s ys; simp only [pend, List.nil_append]; rw [joinFrom_flush]; simp
    | cons c xs ih =>
      intro s ys
      cases c with
      | text x => exact ih _ ys
      | tab x => simp only [pend, List.append_assoc]; rw [joinFrom_flush]; simp [joinFrom, ih]
      | br x => simp only [pend, List.append_assoc]; rw [joinFrom_flush]; simp [joinFrom, ih]
      | drawing x => simp only [pend, List.append_assoc]; rw [joinFrom_flush]; simp [joinFrom, ih]
  have := key xs "" ys
  rw [hp] at this
  simpa using this

theorem joinTexts_joinTexts_absorb (pr r : Run) : (pr.absorb r).children = joinTexts (pr.children ++ r.joined.children) := by
  simp only [Run.absorb, Run.joined]; rw [joinTexts_append_join]

theorem joinFrom_space {x : Text} (cs : List RChild) : ∀ {s : String}, .text x ∈ joinFrom s cs → x.space = "" := by
  have fl : ∀ s, RChild.text x ∈ flushText s → x.space = "" := by
    intro s h
    by_cases hs : s = ""
    · subst hs; simp at h
    · rw [flushText_ne hs] at h; simp only [List.mem_singleton, RChild.text.injEq] at h; rw [h]
  induction cs with
  | nil => intro s h; exact fl s h
  | cons c cs ih =>
    intro s h
    cases c with
    | text y => exact ih h
    | tab y =>
      simp only [joinFrom, List.mem_append, List.mem_cons, reduceCtorEq, false_or] at h
      exact h.elim (fl s) ih
    | br y =>
      simp only [joinFrom, List.mem_append, List.mem_cons, reduceCtorEq, false_or] at h
      exact h.elim (fl s) ih
    | drawing y =>
      simp only [joinFrom, List.mem_append, List.mem_cons, reduceCtorEq, false_or] at h
      exact h.elim (fl s) ih

/-! ## `gather` -/

theorem text_of {h : Heap} {i : Nat} {x : Text} (hx : h.texts[i]? = some x) : h.text i = x.text := by
  simp [Heap.text, hx]

theorem text_eta {z : Text} (h : z.space = "") : ({ text := z.text } : Text) = z := by
  cases z; simp only at h; rw [h]

theorem get_addText {h : Heap} {i : Nat} {s : String} (j : Nat) :
    (h.addText i s).texts[j]? = if j = i then (h.texts[j]?).map fun t => { t with text := t.text ++ s } else h.texts[j]? := by
  simp only [Heap.addText, List.getElem?_modify]
  by_cases hij : i = j
  · subst hij; cases h.texts[i]? <;> simp
  · have : ¬ j = i := fun e => hij e.symm
    cases h.texts[j]? <;> simp [hij, this]

theorem get_newText {h : Heap} (j : Nat) :
    h.newText.1.texts[j]? = if j = h.texts.length then some {} else h.texts[j]? := by
  simp only [Heap.newText]
  by_cases hj : j = h.texts.length
  · subst hj; simp
  · simp only [hj, if_false]
    by_cases hl : j < h.texts.length
    · rw [List.getElem?_append_left hl]
    · rw [List.getElem?_eq_none (by simp; omega), List.getElem?_eq_none (by omega)]

theorem load_congr {h h' : Heap} {ks : List HRC} (e : ∀ i ∈ refs ks, h'.texts[i]? = h.texts[i]?) :
    ks.map (·.load h') = ks.map (·.load h) := by
  refine List.map_congr_left ?_
  intro k hk
  cases k with
  | other c => rfl
  | txt j =>
    simp only [HRC.load_txt]
    rw [e j (List.mem_filterMap.2 ⟨_, hk, rfl⟩)]

/-- what `gather` does when `t` is a text object of its own -/
theorem gather_load {b : Nat} : ∀ (cs : List HRC) (h : Heap) (t : Nat) (acc : List HRC) (s : String),
    b ≤ t → h.texts[t]? = some { text := s } → Proper cs →
    (∀ x ∈ refs cs, x < b) → (∀ x ∈ refs acc, b ≤ x ∧ x < t) → (refs acc).Pairwise (· < ·) →
    (∀ i, i < h.texts.length → i ≠ t → (gather h t acc cs).1.texts[i]? = h.texts[i]?) ∧
    h.texts.length ≤ (gather h t acc cs).1.texts.length ∧
    (gather h t acc cs).1.runs = h.runs ∧
    (∃ s', (gather h t acc cs).1.texts[(gather h t acc cs).2.1]? = some { text := s' }) ∧
    b ≤ (gather h t acc cs).2.1 ∧
    (refs (gather h t acc cs).2.2).Pairwise (· < ·) ∧
    (∀ x ∈ refs (gather h t acc cs).2.2, b ≤ x ∧ x ≤ (gather h t acc cs).2.1) ∧
    (gather h t acc cs).2.2.map (·.load (gather h t acc cs).1) =
      acc.map (·.load h) ++ joinFrom s (cs.map (·.load h)) := by
  intro cs
  induction cs with
  | nil =>
    intro h t acc s hb ht _ _ hacc hpw
    have htx : h.text t = s := text_of ht
    unfold gather
    by_cases hs : s = ""
    · rw [if_neg (by simp [htx, hs])]
      refine ⟨fun _ _ _ => rfl, Nat.le_refl _, rfl, ⟨s, ht⟩, hb, hpw, ?_, ?_⟩
      · intro x hx; have := hacc x hx; simp; omega
      · simp [joinFrom, hs]
    · rw [if_pos (by simpa [htx] using hs)]
      refine ⟨fun _ _ _ => rfl, Nat.le_refl _, rfl, ⟨s, ht⟩, hb, ?_, ?_, ?_⟩
      · simp only [refs_append, refs_txt, refs_nil]
        rw [List.pairwise_append]
        refine ⟨hpw, by simp, ?_⟩
        intro a ha x hx
        simp only [List.mem_singleton] at hx
        subst hx
        exact (hacc a ha).2
      · intro x hx
        simp only [refs_append, refs_txt, refs_nil, List.mem_append, List.mem_singleton] at hx
        rcases hx with hx | rfl
        · have := hacc x hx; simp; omega
        · simp; exact hb
      · simp [joinFrom, flushText_ne hs, ht]
  | cons c cs ih =>
    intro h t acc s hb ht hpr hcs hacc hpw
    have hpr' : Proper cs := fun o ho => hpr o (List.mem_cons_of_mem _ ho)
    have htx : h.text t = s := text_of ht
    have htl : t < h.texts.length := by
      rw [List.getElem?_eq_some_iff] at ht; exact ht.1
    cases c with
    | txt x =>
      have hxb : x < b := hcs x (by simp)
      have hx : h.texts[x]? = some (h.texts[x]'(by omega)) := List.getElem?_eq_getElem (by omega)
      have hcs' : ∀ y ∈ refs cs, y < b := fun y hy => hcs y (by simp [hy])
      have hload : (HRC.txt x).load h = .text (h.texts[x]'(by omega)) := by simp [hx]
      have htextx : h.text x = (h.texts[x]'(by omega)).text := text_of hx
      simp only [gather]
      by_cases he : h.text x = ""
      · rw [if_neg (by simpa using he)]
        obtain ⟨a1, a2, a3, a4, a5, a6, a7, a8⟩ := ih h t acc s hb ht hpr' hcs' hacc hpw
        refine ⟨a1, a2, a3, a4, a5, a6, a7, ?_⟩
        rw [a8]
        simp only [List.map_cons, hload, joinFrom]
        rw [← htextx, he, String.append_empty]
      · rw [if_pos he]
        have hget := get_addText (h := h) (i := t) (s := h.text x) t
        rw [if_pos rfl, ht] at hget
        simp only [Option.map_some] at hget
        have hmap : ∀ ks : List HRC, (∀ y ∈ refs ks, y ≠ t) →
            ks.map (·.load (h.addText t (h.text x))) = ks.map (·.load h) := by
          intro ks hks
          refine load_congr ?_
          intro i hi
          rw [get_addText, if_neg (hks i hi)]
        obtain ⟨a1, a2, a3, a4, a5, a6, a7, a8⟩ := ih (h.addText t (h.text x)) t acc (s ++ h.text x) hb hget hpr' hcs' hacc hpw
        have hlen : (h.addText t (h.text x)).texts.length = h.texts.length := by simp [Heap.addText]
        rw [hlen] at a1 a2
        refine ⟨?_, a2, a3, a4, a5, a6, a7, ?_⟩
        · intro i hi hne
          rw [a1 i hi hne, get_addText, if_neg hne]
        · rw [a8, hmap acc (fun y hy => by have := hacc y hy; omega),
            hmap cs (fun y hy => by have := hcs' y hy; omega)]
          simp only [List.map_cons, hload, joinFrom]
          rw [← htextx]
    | other o =>
      have hcs' : ∀ y ∈ refs cs, y < b := fun y hy => hcs y (by simpa using hy)
      have hj := joinFrom_other (hpr o (by simp)) s (cs.map (·.load h))
      simp only [gather]
      by_cases he : s = ""
      · rw [if_neg (by simp [htx, he])]
        obtain ⟨a1, a2, a3, a4, a5, a6, a7, a8⟩ := ih h t (acc ++ [.other o]) s hb ht hpr' hcs'
          (by simpa using hacc) (by simpa using hpw)
        refine ⟨a1, a2, a3, a4, a5, a6, a7, ?_⟩
        rw [a8]
        subst he
        simp [hj]
      · rw [if_pos (by simpa [htx] using he)]
        have hget := get_newText (h := h) h.texts.length
        rw [if_pos rfl] at hget
        have hlen : h.newText.1.texts.length = h.texts.length + 1 := by simp [Heap.newText]
        have hmap : ∀ ks : List HRC, (∀ y ∈ refs ks, y < h.texts.length) →
            ks.map (·.load h.newText.1) = ks.map (·.load h) := by
          intro ks hks
          refine load_congr ?_
          intro i hi
          rw [get_newText, if_neg (by have := hks i hi; omega)]
        have hacc' : ∀ y ∈ refs (acc ++ [.txt t] ++ [.other o]), b ≤ y ∧ y < h.texts.length := by
          intro y hy
          simp only [refs_append, refs_txt, refs_other, refs_nil, List.append_nil, List.mem_append, List.mem_singleton] at hy
          rcases hy with hy | rfl
          · have := hacc y hy; omega
          · omega
        obtain ⟨a1, a2, a3, a4, a5, a6, a7, a8⟩ := ih h.newText.1 h.texts.length (acc ++ [.txt t] ++ [.other o]) ""
          (by omega) hget hpr' hcs' hacc' (by
            simp only [refs_append, refs_txt, refs_other, refs_nil, List.append_nil]
            rw [List.pairwise_append]
            refine ⟨hpw, by simp, ?_⟩
            intro a ha x hx
            simp only [List.mem_singleton] at hx
            subst hx
            exact (hacc a ha).2)
        show (∀ i, i < h.texts.length → i ≠ t → (gather h.newText.1 h.texts.length (acc ++ [.txt t] ++ [.other o]) cs).1.texts[i]? = _) ∧ _
        refine ⟨?_, by rw [hlen] at a2; exact Nat.le_trans (Nat.le_succ _) a2, a3, a4, a5, a6, a7, ?_⟩
        · intro i hi hne
          rw [a1 i (by omega) (by omega), get_newText, if_neg (by omega)]
        · refine a8.trans ?_
          rw [hmap _ (fun y hy => (hacc' y hy).2), hmap cs (fun y hy => by have := hcs' y hy; omega)]
          simp [hj, flushText_ne he, ht]

/-- the text `t`, if it is not empty -/
def tailOf (h : Heap) (t : Nat) : List HRC := if h.text t ≠ "" then [.txt t] else []

/-- `gather` on a run whose text is last: at most one text, at the end -/
theorem gather_textLast (b : Nat) : ∀ (cs : List HRC) (h : Heap) (t : Nat) (acc : List HRC), b ≤ t →
    t < h.texts.length → Proper cs → (∀ x ∈ refs cs, x < b) → TextLast (cs.map (·.load h)) →
    h.text t = "" ∨ (∀ c ∈ cs, ∃ x, c = .txt x) →
    (gather h t acc cs).2.1 = t ∧ ∃ os : List RChild, (gather h t acc cs).2.2 =
      acc ++ os.map .other ++ tailOf (gather h t acc cs).1 t := by
  intro cs
  induction cs with
  | nil =>
    intro h t acc hb ht _ _ _ _
    unfold gather
    split
    · rename_i hs; exact ⟨rfl, [], by simp [tailOf, hs]⟩
    · rename_i hs; exact ⟨rfl, [], by simp [tailOf, hs]⟩
  | cons c cs ih =>
    intro h t acc hb ht hpr hcs htl hst
    have hpr' : Proper cs := fun o ho => hpr o (List.mem_cons_of_mem _ ho)
    cases c with
    | txt x =>
      have hxb : x < b := hcs x (by simp)
      have hcs' : ∀ y ∈ refs cs, y < b := fun y hy => hcs y (by simp [hy])
      have hx : h.texts[x]? = some (h.texts[x]'(by omega)) := List.getElem?_eq_getElem (by omega)
      have htextx : h.text x = (h.texts[x]'(by omega)).text := text_of hx
      have hload : (HRC.txt x).load h = .text (h.texts[x]'(by omega)) := by simp [hx]
      simp only [gather]
      obtain ⟨os, ts, e, h1, h2⟩ := htl
      rw [List.map_cons, hload] at e
      have alltxt : (∀ c ∈ cs.map (·.load h), ∃ t, c = RChild.text t) → ∀ c ∈ cs, ∃ x, c = HRC.txt x := by
        intro ha c hc
        cases c with
        | txt y => exact ⟨y, rfl⟩
        | other o =>
          obtain ⟨t, ht⟩ := ha o (List.mem_map.2 ⟨_, hc, rfl⟩)
          exact absurd ht (hpr' o hc t)
      by_cases he : h.text x = ""
      · rw [if_neg (by simpa using he)]
        refine ih h t acc hb ht hpr' hcs' ?_ ?_
        · cases os with
          | nil =>
            refine ⟨[], cs.map (·.load h), rfl, by simp, ?_⟩
            intro c hc; exact h2 c (by rw [List.nil_append] at e; rw [← e]; simp [List.mem_map.1 hc])
          | cons o os =>
            simp only [List.cons_append, List.cons.injEq] at e
            exact ⟨os, ts, e.2, fun t ht => h1 t (by simp [ht]), h2⟩
        · rcases hst with hst | hst
          · exact .inl hst
          · exact .inr fun c hc => hst c (by simp [hc])
      · rw [if_pos he]
        have hos : os = [] := by
          cases os with
          | nil => rfl
          | cons o os =>
            exfalso
            simp only [List.cons_append, List.cons.injEq] at e
            exact he (by rw [htextx]; exact h1 _ (by rw [← e.1]; simp))
        subst hos
        rw [List.nil_append] at e
        have hall : ∀ c ∈ cs.map (·.load h), ∃ t, c = RChild.text t := by
          intro c hc; exact h2 c (by rw [← e]; exact List.mem_cons_of_mem _ hc)
        have hall' := alltxt hall
        refine ih _ t acc hb (by simpa [Heap.addText] using ht) hpr' hcs' ?_ (.inr hall')
        refine ⟨[], _, (List.nil_append _).symm, by simp, ?_⟩
        intro c hc
        obtain ⟨k, hk, rfl⟩ := List.mem_map.1 hc
        obtain ⟨y, rfl⟩ := hall' k hk
        exact ⟨_, HRC.load_txt ..⟩
    | other o =>
      have hcs' : ∀ y ∈ refs cs, y < b := fun y hy => hcs y (by simpa using hy)
      have hs : h.text t = "" := by
        rcases hst with hst | hst
        · exact hst
        · obtain ⟨x, hx⟩ := hst (.other o) (by simp); cases hx
      simp only [gather]
      rw [if_neg (by simpa using hs)]
      have htl' : TextLast (cs.map (·.load h)) := by
        obtain ⟨os, ts, e, h1, h2⟩ := htl
        cases os with
        | nil =>
          exfalso
          obtain ⟨t, ht⟩ := h2 o (by rw [List.nil_append] at e; rw [← e]; simp)
          exact hpr o (by simp) t ht
        | cons o' os =>
          simp only [List.map_cons, List.cons_append, List.cons.injEq] at e
          exact ⟨os, ts, e.2, fun t ht => h1 t (by simp [ht]), h2⟩
      obtain ⟨a, os, e⟩ := ih h t (acc ++ [.other o]) hb ht hpr' hcs' htl' (.inl hs)
      refine ⟨a, o :: os, ?_⟩
      rw [e]; simp

/-- `gather` changes no other text -/
theorem gather_texts : ∀ (cs : List HRC) (h : Heap) (t : Nat) (acc : List HRC) (i : Nat),
    i < h.texts.length → i ≠ t → (gather h t acc cs).1.texts[i]? = h.texts[i]? := by
  intro cs
  induction cs with
  | nil => intro h t acc i _ _; unfold gather; split <;> rfl
  | cons c cs ih =>
    intro h t acc i hi hne
    cases c with
    | txt x =>
      simp only [gather]
      split
      · rw [ih _ _ _ _ (by simpa [Heap.addText] using hi) hne, get_addText, if_neg hne]
      · exact ih _ _ _ _ hi hne
    | other o =>
      simp only [gather]
      split
      · refine (ih h.newText.1 h.texts.length _ _ (by simp [Heap.newText]; omega) (by omega)).trans ?_
        rw [get_newText, if_neg (by omega)]
      · exact ih _ _ _ _ hi hne

/-- `gather` on a run that starts with texts, after which its text is last -/
theorem gather_lead (b : Nat) : ∀ (cs : List HRC) (h : Heap) (t : Nat) (acc : List HRC) (ts rest : List RChild),
    b ≤ t → t < h.texts.length → Proper cs → (∀ x ∈ refs cs, x < b) →
    cs.map (·.load h) = ts ++ rest → (∀ c ∈ ts, ∃ t, c = .text t) → TextLast rest →
    ∃ os : List RChild,
      ((gather h t acc cs).2.2 = acc ++ (os.map .other ++ tailOf (gather h t acc cs).1 (gather h t acc cs).2.1)) ∨
      (t < (gather h t acc cs).2.1 ∧ (gather h t acc cs).1.text t ≠ "" ∧
        (gather h t acc cs).2.2 = acc ++ .txt t :: (os.map .other ++ tailOf (gather h t acc cs).1 (gather h t acc cs).2.1)) := by
  intro cs
  induction cs with
  | nil =>
    intro h t acc ts rest _ _ _ _ _ _ _
    refine ⟨[], .inl ?_⟩
    unfold gather
    split
    · rename_i hs; simp [tailOf, hs]
    · rename_i hs; simp [tailOf, hs]
  | cons c cs ih =>
    intro h t acc ts rest hb ht hpr hcs e hts hrest
    have hpr' : Proper cs := fun o ho => hpr o (List.mem_cons_of_mem _ ho)
    have htl : ts = [] → TextLast ((c :: cs).map (·.load h)) := by
      intro h0; rw [e, h0]; exact hrest
    cases c with
    | txt x =>
      have hcs' : ∀ y ∈ refs cs, y < b := fun y hy => hcs y (by simp [hy])
      have hxb : x < b := hcs x (by simp)
      have hx : h.texts[x]? = some (h.texts[x]'(by omega)) := List.getElem?_eq_getElem (by omega)
      have hload : (HRC.txt x).load h = .text (h.texts[x]'(by omega)) := by simp [hx]
      -- the rest has the same form
      have hrec : ∃ ts' rest', cs.map (·.load h) = ts' ++ rest' ∧ (∀ c ∈ ts', ∃ t, c = .text t) ∧ TextLast rest' := by
        cases ts with
        | cons y ts =>
          simp only [List.map_cons, List.cons_append, List.cons.injEq] at e
          exact ⟨ts, rest, e.2, fun c hc => hts c (by simp [hc]), hrest⟩
        | nil =>
          obtain ⟨os, us, e2, h1, h2⟩ := hrest
          rw [List.nil_append] at e
          rw [e2] at e
          cases os with
          | nil =>
            refine ⟨cs.map (·.load h), [], by simp, ?_, ⟨[], [], rfl, by simp, by simp⟩⟩
            intro c hc
            refine h2 c ?_
            rw [List.nil_append] at e
            rw [← e, List.map_cons]; exact List.mem_cons_of_mem _ hc
          | cons o os =>
            simp only [List.map_cons, List.cons_append, List.cons.injEq] at e
            exact ⟨[], os ++ us, e.2, by simp, ⟨os, us, rfl, fun t ht => h1 t (by simp [ht]), h2⟩⟩
      obtain ⟨ts', rest', e', hts', hrest'⟩ := hrec
      simp only [gather]
      split
      · have hl : cs.map (·.load (h.addText t (h.text x))) = cs.map (·.load h) := by
          refine load_congr ?_
          intro i hi
          rw [get_addText, if_neg (by have := hcs' i hi; omega)]
        exact ih _ t acc ts' rest' hb (by simpa [Heap.addText] using ht) hpr' hcs' (hl.trans e') hts' hrest'
      · exact ih _ t acc ts' rest' hb ht hpr' hcs' e' hts' hrest'
    | other o =>
      have hcs' : ∀ y ∈ refs cs, y < b := fun y hy => hcs y (by simpa using hy)
      have hts0 : ts = [] := by
        cases ts with
        | nil => rfl
        | cons y ts =>
          exfalso
          simp only [List.map_cons, List.cons_append, List.cons.injEq, HRC.load_other] at e
          obtain ⟨z, hz⟩ := hts y (by simp)
          exact hpr o (by simp) z (e.1.trans hz)
      have htl' : TextLast (cs.map (·.load h)) := by
        obtain ⟨os, us, e, h1, h2⟩ := htl hts0
        cases os with
        | nil =>
          exfalso
          obtain ⟨t, ht⟩ := h2 o (by rw [List.nil_append] at e; rw [← e]; simp)
          exact hpr o (by simp) t ht
        | cons o' os =>
          simp only [List.map_cons, List.cons_append, List.cons.injEq] at e
          exact ⟨os, us, e.2, fun t ht => h1 t (by simp [ht]), h2⟩
      simp only [gather]
      split
      · rename_i hs
        have hnew : h.newText.1.texts[h.texts.length]? = some {} := by simp [Heap.newText]
        have hl : cs.map (·.load h.newText.1) = cs.map (·.load h) := by
          refine load_congr ?_
          intro i hi
          rw [get_newText, if_neg (by have := hcs' i hi; omega)]
        obtain ⟨a, os, e⟩ := gather_textLast b cs h.newText.1 h.texts.length (acc ++ [.txt t] ++ [.other o])
          (by omega) (by simp [Heap.newText]) hpr' hcs' (by rw [hl]; exact htl') (.inl (text_of hnew))
        refine ⟨o :: os, .inr ⟨?_, ?_, ?_⟩⟩
        · exact Nat.lt_of_lt_of_eq ht a.symm
        · have := gather_texts cs h.newText.1 h.texts.length (acc ++ [.txt t] ++ [.other o]) t
            (by simp [Heap.newText]; omega) (by omega)
          rw [get_newText, if_neg (by omega)] at this
          unfold Heap.text at hs ⊢
          rw [show h.newText.2 = h.texts.length from rfl, this]; exact hs
        · refine e.trans ?_
          rw [show h.newText.2 = h.texts.length from rfl, a]
          simp
      · rename_i hs
        obtain ⟨a, os, e⟩ := gather_textLast b cs h t (acc ++ [.other o]) hb ht hpr' hcs' htl' (.inl (by simpa using hs))
        refine ⟨o :: os, .inl ?_⟩
        rw [e, a]; simp

/-! ## Merging one run -/

/-- `r.Children = append(r.Children, cs...)` -/
def Heap.pushKids (h : Heap) (i : Nat) (cs : List HRC) : Heap :=
  { h with runs := h.runs.modify i fun r => { r with children := r.children ++ cs } }

theorem pushKids_nil (h : Heap) (i : Nat) : h.pushKids i [] = h := by
  unfold Heap.pushKids
  have : (fun r : HRun => { r with children := r.children ++ [] }) = id := by
    funext r; simp
  rw [this]
  have : h.runs.modify i id = h.runs := by
    apply List.ext_getElem?
    intro j
    rw [List.getElem?_modify]
    split <;> simp
  rw [this]

theorem pushKid_pushKids (h : Heap) (i : Nat) (c : HRC) (cs : List HRC) :
    (h.pushKid i c).pushKids i cs = h.pushKids i (c :: cs) := by
  unfold Heap.pushKids Heap.pushKid
  congr 1
  apply List.ext_getElem?
  intro j
  simp only [List.getElem?_modify]
  by_cases hij : i = j
  · cases h.runs[j]? <;> simp [hij]
  · cases h.runs[j]? <;> simp [hij]

/-- merging non-texts, then at most one text, while the open text is empty -/
theorem mergeKids_empty (prev t : Nat) : ∀ (os : List RChild) (h : Heap) (pt : Nat),
    h.text pt = "" → pt < h.texts.length → pt ≠ t →
    ∃ ts, mergeKids h prev t pt false (os.map .other ++ tailOf h t) =
      { (h.pushKids prev (os.map .other ++ tailOf h t)) with texts := ts } ∧
      (∀ i, i ≠ pt → ts[i]? = h.texts[i]?) ∧ ts.length = h.texts.length := by
  intro os
  induction os with
  | nil =>
    intro h pt hpt hl hne
    by_cases hs : h.text t = ""
    · have he : tailOf h t = [] := by simp [tailOf, hs]
      rw [he]
      refine ⟨h.texts, ?_, fun _ _ => rfl, rfl⟩
      simp only [List.map_nil, List.nil_append, pushKids_nil]
      unfold mergeKids
      rw [if_neg (by simp [hpt])]
    · have he : tailOf h t = [.txt t] := by simp [tailOf, hs]
      rw [he]
      simp only [List.map_nil, List.nil_append]
      unfold mergeKids
      rw [if_pos hs]
      unfold mergeKids
      have hpx : h.texts[pt]? = some h.texts[pt] := List.getElem?_eq_getElem hl
      have : (h.addText pt (h.text t)).text pt ≠ "" := by
        have := get_addText (h := h) (i := pt) (s := h.text t) pt
        rw [if_pos rfl, hpx] at this
        rw [text_of this]
        have e : (h.texts[pt]).text = "" := by rw [← hpt, text_of hpx]
        simp [e, hs]
      rw [if_pos ⟨this, rfl⟩]
      refine ⟨(h.addText pt (h.text t)).texts, rfl, ?_, by simp [Heap.addText]⟩
      intro i hi
      rw [get_addText, if_neg hi]
  | cons o os ih =>
    intro h pt hpt hl hne
    simp only [List.map_cons, List.cons_append]
    unfold mergeKids
    rw [if_neg (by simpa using hpt)]
    obtain ⟨ts, e, h1, h2⟩ := ih (h.pushKid prev (.other o)) pt hpt hl hne
    refine ⟨ts, ?_, h1, h2⟩
    exact e.trans (by rw [pushKid_pushKids]; rfl)

theorem get_pushKids (h : Heap) (i : Nat) (cs : List HRC) (j : Nat) :
    (h.pushKids i cs).runs[j]? =
      if j = i then (h.runs[j]?).map fun r => { r with children := r.children ++ cs } else h.runs[j]? := by
  simp only [Heap.pushKids, List.getElem?_modify]
  by_cases hij : i = j
  · subst hij; cases h.runs[i]? <;> simp
  · have : ¬ j = i := fun e => hij e.symm
    cases h.runs[j]? <;> simp [hij, this]

theorem joinTexts_others_tail {h : Heap} {t : Nat} {s : String} {os : List RChild}
    (ht : h.texts[t]? = some { text := s }) (hos : ∀ o ∈ os, ∀ t, o ≠ RChild.text t) :
    joinTexts ((os.map HRC.other ++ tailOf h t).map (·.load h)) = (os.map HRC.other ++ tailOf h t).map (·.load h) := by
  induction os with
  | nil =>
    unfold tailOf
    rw [text_of ht]
    by_cases hs : s = ""
    · subst hs; simp [joinTexts, joinFrom]
    · simp [hs, ht, joinTexts, joinFrom, flushText_ne hs]
  | cons o os ih =>
    have := ih fun o ho => hos o (by simp [ho])
    simp only [List.map_cons, List.cons_append, HRC.load_other, joinTexts] at this ⊢
    rw [joinFrom_other (hos o (by simp)), this]; simp

/-- what merging one run into `prev` gives, read back -/
structure Merged (h h' : Heap) (prev t b : Nat) (K : List RChild) : Prop where
  load : h'.loadRun prev = { h.loadRun prev with children := joinTexts ((h.loadRun prev).children ++ K) }
  inc : (refs (h'.kids prev)).Pairwise (· < ·)
  bnd : ∀ x ∈ refs (h'.kids prev), b ≤ x ∧ x ≤ t
  proper : Proper (h'.kids prev)
  rlen : h'.runs.length = h.runs.length
  tlen : h.texts.length ≤ h'.texts.length

theorem loadRun_children (h : Heap) (i : Nat) : (h.loadRun i).children = (h.kids i).map (·.load h) := by
  unfold Heap.loadRun Heap.kids
  cases h.runs[i]? <;> rfl

theorem refs_others (os : List RChild) : refs (os.map .other) = [] := by
  induction os with
  | nil => rfl
  | cons o os ih => simpa using ih

theorem tailOf_congr {h h' : Heap} {t : Nat} (e : h'.texts[t]? = h.texts[t]?) : tailOf h' t = tailOf h t := by
  unfold tailOf Heap.text; rw [e]

/-- the case where the children are simply appended -/
theorem merged_append {h h' : Heap} {prev t b : Nat} {os : List RChild} {ts : List Text}
    (hp : prev < h.runs.length) (ht : t < h.texts.length) (hb : b ≤ t)
    (hinc : (refs (h.kids prev)).Pairwise (· < ·)) (hbnd : ∀ x ∈ refs (h.kids prev), b ≤ x ∧ x < t)
    (hpr : Proper (h.kids prev)) (hos : ∀ o ∈ os, ∀ t, o ≠ RChild.text t)
    (hh' : h' = { (h.pushKids prev (os.map .other ++ tailOf h t)) with texts := ts })
    (hts : ∀ i, i < h.texts.length → ts[i]? = h.texts[i]?) (htl : h.texts.length ≤ ts.length)
    (hval : joinTexts ((h.loadRun prev).children ++ (os.map HRC.other ++ tailOf h t).map (·.load h)) =
      (h.loadRun prev).children ++ (os.map HRC.other ++ tailOf h t).map (·.load h)) :
    Merged h h' prev t b ((os.map HRC.other ++ tailOf h t).map (·.load h)) := by
  obtain ⟨r, hr⟩ : ∃ r, h.runs[prev]? = some r := ⟨_, List.getElem?_eq_getElem hp⟩
  have hr' : h'.runs[prev]? = some { r with children := r.children ++ (os.map .other ++ tailOf h t) } := by
    rw [hh']
    show (h.pushKids prev _).runs[prev]? = _
    rw [get_pushKids, if_pos rfl, hr]; rfl
  have hk : h.kids prev = r.children := by simp [Heap.kids, hr]
  have hk' : h'.kids prev = r.children ++ (os.map .other ++ tailOf h t) := by simp [Heap.kids, hr']
  have htail : ∀ x ∈ refs (tailOf h t), x = t := by
    intro x hx; unfold tailOf at hx; split at hx <;> simp_all
  rw [hk] at hinc hbnd hpr
  have hload : (h'.kids prev).map (·.load h') = (h.loadRun prev).children ++ (os.map HRC.other ++ tailOf h t).map (·.load h) := by
    rw [hk', loadRun_children, hk, ← List.map_append]
    refine load_congr ?_
    intro i hi
    rw [hh']
    refine hts i ?_
    simp only [refs_append, refs_others, List.nil_append, List.mem_append] at hi
    rcases hi with hi | hi
    · have := hbnd i hi; omega
    · have := htail i hi; omega
  refine ⟨?_, ?_, ?_, ?_, ?_, ?_⟩
  · rw [hval, ← hload, hk']
    simp only [Heap.loadRun, hr, hr', HRun.load]
  · rw [hk', refs_append, refs_append, refs_others, List.nil_append, List.pairwise_append]
    refine ⟨hinc, ?_, ?_⟩
    · unfold tailOf; split <;> simp
    · intro a ha x hx; rw [htail x hx]; exact (hbnd a ha).2
  · intro x hx
    rw [hk', refs_append, refs_append, refs_others, List.nil_append, List.mem_append] at hx
    rcases hx with hx | hx
    · have := hbnd x hx; omega
    · have := htail x hx; omega
  · intro o ho
    rw [hk'] at ho
    simp only [List.mem_append, List.mem_map, HRC.other.injEq, exists_eq_right] at ho
    rcases ho with ho | ho | ho
    · exact hpr o ho
    · exact hos o ho
    · unfold tailOf at ho; split at ho <;> simp at ho
  · rw [hh']; simp [Heap.pushKids]
  · rw [hh']; exact htl

theorem mergeInto_safe {h : Heap} {prev t b : Nat} {os : List RChild} {s : String}
    (hp : prev < h.runs.length) (ht : h.texts[t]? = some { text := s }) (hb : b ≤ t)
    (hinc : (refs (h.kids prev)).Pairwise (· < ·)) (hbnd : ∀ x ∈ refs (h.kids prev), b ≤ x ∧ x < t)
    (hpr : Proper (h.kids prev)) (hos : ∀ o ∈ os, ∀ t, o ≠ RChild.text t)
    (hP : joinTexts (h.loadRun prev).children = (h.loadRun prev).children)
    (hK : joinTexts ((os.map HRC.other ++ tailOf h t).map (·.load h)) = (os.map HRC.other ++ tailOf h t).map (·.load h)) :
    Merged h (mergeInto h prev t (os.map .other ++ tailOf h t)) prev t b
      ((os.map HRC.other ++ tailOf h t).map (·.load h)) := by
  have htl : t < h.texts.length := by rw [List.getElem?_eq_some_iff] at ht; exact ht.1
  have hnew : h.newText.1.texts[h.texts.length]? = some {} := by simp [Heap.newText]
  have hnt : h.newText.1.texts[t]? = h.texts[t]? := by rw [get_newText, if_neg (by omega)]
  have htail : tailOf h.newText.1 t = tailOf h t := tailOf_congr hnt
  obtain ⟨hPt, hPo⟩ := pend_of_joined hP
  by_cases hlast : ∃ i, (h.kids prev).getLast? = some (.txt i)
  · obtain ⟨i, hi⟩ := hlast
    have hmi : i ∈ refs (h.kids prev) := List.mem_filterMap.2 ⟨_, List.mem_of_getLast? hi, rfl⟩
    have hil : i < h.texts.length := by have := hbnd i hmi; omega
    have hix : h.texts[i]? = some h.texts[i] := List.getElem?_eq_getElem hil
    have hPl : (h.loadRun prev).children.getLast? = some (.text h.texts[i]) := by
      rw [loadRun_children, List.getLast?_map, hi]; simp [hix]
    obtain ⟨e1, e2, e3, e4⟩ := hPt _ hPl
    unfold mergeInto
    rw [hi]
    cases os with
    | cons o os =>
      have ho := hos o (by simp)
      have hu : h.text i ≠ "" := by rw [text_of hix]; exact e3
      simp only [List.map_cons, List.cons_append]
      unfold mergeKids
      rw [if_pos hu]
      simp only [if_true]
      have ht' : (h.newText.1.pushKid prev (.other o)).texts = h.newText.1.texts := rfl
      obtain ⟨ts, e, h1, h2⟩ := mergeKids_empty prev t os (h.newText.1.pushKid prev (.other o)) h.texts.length
        (by rw [text_of (x := {})]; rw [ht']; exact hnew) (by rw [ht']; simp [Heap.newText]) (by omega)
      have htail' : tailOf (h.newText.1.pushKid prev (.other o)) t = tailOf h t := by
        rw [← htail]; exact tailOf_congr rfl
      rw [htail'] at e
      have hK2 : joinFrom "" ((os.map HRC.other ++ tailOf h t).map (·.load h)) = (os.map HRC.other ++ tailOf h t).map (·.load h) := by
        simp only [List.map_cons, List.cons_append, HRC.load_other, joinTexts] at hK
        rw [joinFrom_other ho] at hK
        simpa using hK
      refine merged_append (os := o :: os) (ts := ts) hp htl hb hinc hbnd hpr hos ?_ ?_ ?_ ?_
      · refine e.trans ?_
        rw [pushKid_pushKids]; rfl
      · intro j hj
        rw [h1 j (by omega), ht', get_newText, if_neg (by omega)]
      · rw [h2, ht']; simp [Heap.newText]
      · simp only [List.map_cons, List.cons_append, HRC.load_other]
        show joinFrom "" _ = _
        rw [joinFrom_append, e2, joinFrom_other ho, hK2, flushText_ne e3]
        refine Eq.trans ?_ (congrArg (· ++ _) e1).symm
        have : ({ text := h.texts[i].text } : Text) = h.texts[i] := text_eta e4
        rw [this, List.append_assoc]
    | nil =>
      simp only [List.map_nil, List.nil_append]
      by_cases hs : s = ""
      · have htx : h.text t = "" := by rw [text_of ht, hs]
        have hta : tailOf h t = [] := by simp [tailOf, htx]
        rw [hta]
        unfold mergeKids
        rw [if_neg (by simp)]
        refine ⟨?_, hinc, fun x hx => by have := hbnd x hx; omega, hpr, rfl, Nat.le_refl _⟩
        simp only [List.map_nil, List.append_nil]
        rw [hP]
        cases h.loadRun prev; rfl
      · have htx : h.text t ≠ "" := by rw [text_of ht]; exact hs
        have hta : tailOf h t = [.txt t] := by simp [tailOf, htx]
        rw [hta]
        unfold mergeKids
        rw [if_pos htx]
        unfold mergeKids
        rw [if_neg (by simp)]
        obtain ⟨r, hr⟩ : ∃ r, h.runs[prev]? = some r := ⟨_, List.getElem?_eq_getElem hp⟩
        have hk : h.kids prev = r.children := by simp [Heap.kids, hr]
        obtain ⟨K0, hK0⟩ := List.getLast?_eq_some_iff.1 hi
        refine ⟨?_, hinc, fun x hx => by have := hbnd x hx; omega, hpr, rfl, by simp [Heap.addText]⟩
        have hni : i ∉ refs K0 := by
          intro hm
          rw [hK0, refs_append, List.pairwise_append] at hinc
          exact absurd (hinc.2.2 i hm i (by simp)) (by omega)
        have hK0l : K0.map (·.load (h.addText i (h.text t))) = K0.map (·.load h) := by
          refine load_congr ?_
          intro j hj
          rw [get_addText, if_neg (by rintro rfl; exact hni hj)]
        have hpe : (pend "" (h.loadRun prev).children).1 = K0.map (·.load h) := by
          have : (h.loadRun prev).children = K0.map (·.load h) ++ [.text h.texts[i]] := by
            rw [loadRun_children, hK0]; simp [hix]
          exact (List.append_cancel_right (this.symm.trans e1)).symm
        have hval : joinTexts ((h.loadRun prev).children ++ [HRC.txt t].map (·.load h)) =
            (h.kids prev).map (·.load (h.addText i (h.text t))) := by
          show joinFrom "" _ = _
          rw [joinFrom_append, e2, hK0, List.map_append, hK0l, hpe]
          have := get_addText (h := h) (i := i) (s := h.text t) i
          rw [if_pos rfl, hix] at this
          have hne : h.texts[i].text ++ s ≠ "" := by simp [hs]
          simp only [List.map_cons, List.map_nil, HRC.load_txt, ht, this, Option.map_some, Option.getD_some, joinFrom]
          rw [flushText_ne hne, text_of ht, e4]
        rw [hval, hk]
        have hr2 : (h.addText i (h.text t)).runs[prev]? = some r := hr
        simp only [Heap.loadRun, hr, hr2, HRun.load]
  · have hlast' : ∀ i, (h.kids prev).getLast? ≠ some (.txt i) := fun i hi => hlast ⟨i, hi⟩
    have hPl : ∀ x, (h.loadRun prev).children.getLast? ≠ some (.text x) := by
      intro x hx
      rw [loadRun_children, List.getLast?_map] at hx
      cases hg : (h.kids prev).getLast? with
      | none => rw [hg] at hx; simp at hx
      | some k =>
        rw [hg] at hx
        cases k with
        | txt i => exact hlast' i hg
        | other o =>
          simp only [Option.map_some, HRC.load_other, Option.some.injEq] at hx
          exact hpr o (List.mem_of_getLast? hg) x hx
    obtain ⟨e1, e2⟩ := hPo hPl
    have hmi : mergeInto h prev t (os.map .other ++ tailOf h t) =
        mergeKids h.newText.1 prev t h.texts.length false (os.map .other ++ tailOf h t) := by
      unfold mergeInto
      split
      · rename_i i hi; exact absurd hi (hlast' i)
      · rfl
    rw [hmi]
    obtain ⟨ts, e, h1, h2⟩ := mergeKids_empty prev t os h.newText.1 h.texts.length
      (by rw [text_of (x := {}) hnew]) (by simp [Heap.newText]) (by omega)
    rw [htail] at e
    rw [e]
    refine merged_append (ts := ts) hp htl hb hinc hbnd hpr hos rfl ?_ ?_ ?_
    · intro j hj
      rw [h1 j (by omega), get_newText, if_neg (by omega)]
    · rw [h2]; simp [Heap.newText]
    · show joinFrom "" _ = _
      rw [joinFrom_append, e2, ← e1]
      exact congrArg _ hK

/-- the case where the run starts with a text and the one before it ends in a text -/
theorem mergeInto_lead {h : Heap} {prev t x b : Nat} {os : List RChild} {s u : String}
    (hp : prev < h.runs.length) (ht : h.texts[t]? = some { text := s }) (hx : h.texts[x]? = some { text := u })
    (hu : u ≠ "") (hxt : x < t) (hb : b ≤ x)
    (hinc : (refs (h.kids prev)).Pairwise (· < ·)) (hbnd : ∀ y ∈ refs (h.kids prev), b ≤ y ∧ y < x)
    (hpr : Proper (h.kids prev)) (hos : ∀ o ∈ os, ∀ t, o ≠ RChild.text t)
    (hlast : ∃ z, (h.loadRun prev).children.getLast? = some (.text z))
    (hP : joinTexts (h.loadRun prev).children = (h.loadRun prev).children)
    (hK : joinTexts ((os.map HRC.other ++ tailOf h t).map (·.load h)) = (os.map HRC.other ++ tailOf h t).map (·.load h)) :
    Merged h (mergeInto h prev t (.txt x :: (os.map .other ++ tailOf h t))) prev t b
      ((HRC.txt x :: (os.map HRC.other ++ tailOf h t)).map (·.load h)) := by
  have hxtext : h.text x = u := text_of hx
  obtain ⟨i, hi⟩ : ∃ i, (h.kids prev).getLast? = some (.txt i) := by
    obtain ⟨z, hz⟩ := hlast
    rw [loadRun_children, List.getLast?_map] at hz
    cases hg : (h.kids prev).getLast? with
    | none => rw [hg] at hz; simp at hz
    | some k =>
      rw [hg] at hz
      cases k with
      | txt i => exact ⟨i, rfl⟩
      | other o =>
        simp only [Option.map_some, HRC.load_other, Option.some.injEq] at hz
        exact absurd hz (hpr o (List.mem_of_getLast? hg) z)
  have hmi : i ∈ refs (h.kids prev) := List.mem_filterMap.2 ⟨_, List.mem_of_getLast? hi, rfl⟩
  have hix := hbnd i hmi
  have htail1 : tailOf h x = [.txt x] := by simp [tailOf, hxtext, hu]
  have M1 := mergeInto_safe (h := h) (prev := prev) (t := x) (b := b) (os := []) (s := u) hp hx hb hinc hbnd hpr (by simp) hP
    (by rw [htail1]; simp [hx, joinTexts, joinFrom, flushText_ne hu])
  have e1 : mergeInto h prev x (List.map HRC.other [] ++ tailOf h x) = h.addText i u := by
    rw [htail1]
    unfold mergeInto
    rw [hi]
    simp only [List.map_nil, List.nil_append]
    unfold mergeKids
    rw [if_pos (by rw [hxtext]; exact hu), hxtext]
    unfold mergeKids
    rw [if_neg (by simp)]
  rw [e1] at M1
  have e2 : mergeInto h prev t (.txt x :: (os.map .other ++ tailOf h t)) =
      mergeInto (h.addText i u) prev t (os.map .other ++ tailOf h t) := by
    unfold mergeInto
    rw [show (h.addText i u).kids prev = h.kids prev from rfl, hi]
    simp only
    rw [mergeKids, if_pos (by rw [hxtext]; exact hu), hxtext]
  have hta : tailOf (h.addText i u) t = tailOf h t := by
    refine tailOf_congr ?_
    rw [get_addText, if_neg (by omega)]
  have hrefs : ∀ y ∈ refs (os.map HRC.other ++ tailOf h t), y = t := by
    intro y hy
    rw [refs_append, refs_others, List.nil_append] at hy
    unfold tailOf at hy; split at hy <;> simp_all
  have hKl : (os.map HRC.other ++ tailOf h t).map (·.load (h.addText i u)) = (os.map HRC.other ++ tailOf h t).map (·.load h) := by
    refine load_congr ?_
    intro j hj
    rw [get_addText, if_neg (by have := hrefs j hj; omega)]
  have M2 := mergeInto_safe (h := h.addText i u) (prev := prev) (t := t) (b := b) (os := os) (s := s) hp
    (by rw [get_addText, if_neg (by omega)]; exact ht) (by omega) hinc
    (fun y hy => by have := hbnd y hy; omega) hpr hos
    (by rw [M1.load]; exact joinTexts_idem _) (by rw [hta, hKl]; exact hK)
  rw [hta, hKl] at M2
  rw [e2]
  refine ⟨?_, M2.inc, M2.bnd, M2.proper, M2.rlen, Nat.le_trans M1.tlen M2.tlen⟩
  rw [M2.load, M1.load]
  rw [joinTexts_join_append, htail1]
  simp

/-! ## The loop -/

/-- a pointer to objects that are older than `b` texts and `m` runs -/
def HPC.Old (b m : Nat) (h : Heap) : HPC → Prop
  | .other c => ∀ r, c ≠ .run r
  | .run i => i < m ∧ (∀ x ∈ refs (h.kids i), x < b) ∧ Proper (h.kids i)

theorem HPC.Old.mono {b m b' m' : Nat} {h : Heap} {c : HPC} (hc : c.Old b m h) (hb : b ≤ b') (hm : m ≤ m') :
    c.Old b' m' h := by
  cases c with
  | other c => exact hc
  | run i => exact ⟨by have := hc.1; omega, fun x hx => by have := hc.2.1 x hx; omega, hc.2.2⟩

theorem kids_frame {b m : Nat} {h h' : Heap} (f : Frame b m h h') {i : Nat} (hi : i < m) :
    h'.kids i = h.kids i := by unfold Heap.kids; rw [f.runs i hi]

theorem loadRun_frame {b m : Nat} {h h' : Heap} (f : Frame b m h h') {i : Nat} (hi : i < m)
    (hx : ∀ x ∈ refs (h.kids i), x < b) : h'.loadRun i = h.loadRun i := by
  simp only [Heap.loadRun, f.runs i hi]
  cases hr : h.runs[i]? with
  | none => rfl
  | some r =>
    simp only [HRun.load, Run.mk.injEq, true_and]
    refine load_congr ?_
    intro j hj
    refine f.texts j (hx j ?_)
    simp only [Heap.kids, hr]; exact hj

theorem HPC.Old.frame {b m : Nat} {h h' : Heap} {c : HPC} (hc : c.Old b m h) (f : Frame b m h h') :
    c.Old b m h' ∧ c.load h' = c.load h := by
  cases c with
  | other c => exact ⟨hc, rfl⟩
  | run i =>
    obtain ⟨h1, h2, h3⟩ := hc
    have hk := kids_frame f h1
    exact ⟨⟨h1, hk ▸ h2, hk ▸ h3⟩, by simp only [HPC.load_run]; rw [loadRun_frame f h1 h2]⟩

theorem map_load_frame {b m : Nat} {h h' : Heap} (f : Frame b m h h') {cs : List HPC}
    (hcs : ∀ c ∈ cs, c.Old b m h) : cs.map (·.load h') = cs.map (·.load h) :=
  List.map_congr_left fun c hc => ((hcs c hc).frame f).2

/-- the state of the loop of `MergeText` -/
structure LInv (h : Heap) (prev : Option Nat) (adj : Bool) (b m : Nat) (acc cs : List HPC) : Prop where
  hb : b ≤ h.texts.length
  hm : m ≤ h.runs.length
  old : ∀ c ∈ acc ++ cs, c.Old b m h
  pv : ∀ pr, prev = some pr → pr < h.runs.length ∧ (∀ x ∈ refs (h.kids pr), x < h.texts.length) ∧ Proper (h.kids pr)
  adjv : adj = true → ∃ pr, prev = some pr ∧ m = pr ∧ pr + 1 = h.runs.length ∧
    (refs (h.kids pr)).Pairwise (· < ·) ∧ (∀ x ∈ refs (h.kids pr), b ≤ x) ∧
    joinTexts (h.loadRun pr).children = (h.loadRun pr).children

/-- the pointer to the run still to be put out -/
def emitPtr : Option Nat → Bool → List HPC
  | some i, true => [.run i]
  | _, _ => []

theorem emit_load (h : Heap) (prev : Option Nat) (adj : Bool) :
    (emitPtr prev adj).map (·.load h) = emitRun (prev.map h.loadRun) adj := by
  cases prev <;> cases adj <;> rfl

/-- starting a new run -/
theorem LInv.newRun {h h2 : Heap} {prev adj b m acc cs t kids} {o : Nat} {ro : HRun}
    (inv : LInv h prev adj b m acc (.run o :: cs)) (hro : h.runs[o]? = some ro)
    (hg : gather h.newText.1 h.newText.2 [] ro.children = (h2, t, kids)) :
    LInv (h2.newRun { ro with children := kids }).1 (some h2.runs.length) true h.texts.length h.runs.length
      (acc ++ emitPtr prev adj) cs ∧
    (h2.newRun { ro with children := kids }).1.loadRun h2.runs.length = (h.loadRun o).joined ∧
    (HRun.load h2 { ro with children := kids }) = (h.loadRun o).joined ∧
    Frame h.texts.length h.runs.length h h2 ∧ h2.runs = h.runs ∧
    Frame h.texts.length h.runs.length h (h2.newRun { ro with children := kids }).1 := by
  have hold := inv.old (.run o) (by simp)
  have hko : h.kids o = ro.children := by simp [Heap.kids, hro]
  obtain ⟨ho1, ho2, ho3⟩ := hold
  rw [hko] at ho2 ho3
  have hlen : h.newText.1.texts.length = h.texts.length + 1 := by simp [Heap.newText]
  have hgl := gather_load (b := h.texts.length) ro.children h.newText.1 h.texts.length [] "" (Nat.le_refl _)
    (by simp [Heap.newText]) ho3 (fun x hx => by have := ho2 x hx; have := inv.hb; omega) (by simp) (by simp)
  change gather h.newText.1 h.texts.length [] ro.children = _ at hg
  rw [hg] at hgl
  obtain ⟨a1, a2, a3, a4, a5, a6, a7, a8⟩ := hgl
  simp only at a1 a2 a3 a4 a5 a6 a7 a8
  have htx : t < h2.texts.length := by
    obtain ⟨s', hs'⟩ := a4; rw [List.getElem?_eq_some_iff] at hs'; exact hs'.1
  have f2 : Frame h.texts.length h.runs.length h h2 := by
    refine ⟨?_, ?_, by omega, by rw [a3]; exact Nat.le_refl _⟩
    · intro i hi
      rw [a1 i (by omega) (by omega), get_newText, if_neg (by omega)]
    · intro i hi; rw [a3]; rfl
  have hruns : h2.runs = h.runs := a3
  have f3 : Frame h.texts.length h.runs.length h (h2.newRun { ro with children := kids }).1 :=
    f2.trans (frame_newRun (by rw [hruns]; exact Nat.le_refl _))
  have hcl : ro.children.map (·.load h.newText.1) = ro.children.map (·.load h) := by
    refine load_congr ?_
    intro i hi
    rw [get_newText, if_neg (by have := ho2 i hi; have := inv.hb; omega)]
  have hkl : kids.map (·.load h2) = joinTexts (h.loadRun o).children := by
    rw [a8, hcl, loadRun_children, hko]; rfl
  have hrl : HRun.load h2 { ro with children := kids } = (h.loadRun o).joined := by
    simp only [HRun.load, hkl, Run.joined, Heap.loadRun, hro]
  have hget : (h2.newRun { ro with children := kids }).1.runs[h2.runs.length]? = some { ro with children := kids } := by
    simp [Heap.newRun]
  have hlr : (h2.newRun { ro with children := kids }).1.loadRun h2.runs.length = (h.loadRun o).joined := by
    rw [← hrl]
    simp only [Heap.loadRun, hget]
    rfl
  have hkn : (h2.newRun { ro with children := kids }).1.kids h2.runs.length = kids := by
    simp [Heap.kids, hget]
  have hprop : Proper kids := by
    -- a text behind `other` would be loaded as a child of the joined run, next to a pointer
    have : ∀ (cs : List HRC) (h : Heap) (t : Nat) (acc : List HRC), Proper cs → Proper acc → Proper (gather h t acc cs).2.2 := by
      intro cs
      induction cs with
      | nil =>
        intro h t acc _ ha
        unfold gather; split
        · intro o ho; simp only [List.mem_append, List.mem_singleton, reduceCtorEq, or_false] at ho; exact ha o ho
        · exact ha
      | cons c cs ih =>
        intro h t acc hc ha
        have hc' : Proper cs := fun o ho => hc o (by simp [ho])
        cases c with
        | txt x => simp only [gather]; split <;> exact ih _ _ _ hc' ha
        | other y =>
          simp only [gather]
          split
          · refine ih _ _ _ hc' ?_
            intro o ho
            simp only [List.mem_append, List.mem_singleton, reduceCtorEq, or_false, HRC.other.injEq] at ho
            rcases ho with ho | rfl
            · exact ha o ho
            · exact hc o (by simp)
          · refine ih _ _ _ hc' ?_
            intro o ho
            simp only [List.mem_append, List.mem_singleton, HRC.other.injEq] at ho
            rcases ho with ho | rfl
            · exact ha o ho
            · exact hc o (by simp)
    have := this ro.children h.newText.1 h.texts.length [] ho3 (by simp [Proper])
    rw [hg] at this; exact this
  refine ⟨⟨f3.tlen, f3.rlen, ?_, ?_, ?_⟩, hlr, hrl, f2, hruns, f3⟩
  · intro c hc
    have hold : c.Old h.texts.length h.runs.length h := by
      simp only [List.mem_append] at hc
      rcases hc with (hc | hc) | hc
      · exact (inv.old c (by simp [hc])).mono inv.hb inv.hm
      · cases prev with
        | none => simp [emitPtr] at hc
        | some pr =>
          cases adj with
          | false => simp [emitPtr] at hc
          | true =>
            simp only [emitPtr, List.mem_singleton] at hc
            subst hc
            exact inv.pv pr rfl
      · exact (inv.old c (by simp [hc])).mono inv.hb inv.hm
    exact (hold.frame f3).1
  · intro pr hpr
    cases hpr
    refine ⟨by simp [Heap.newRun], ?_, by rw [hkn]; exact hprop⟩
    intro x hx
    rw [hkn] at hx
    have := a7 x hx
    show x < h2.texts.length
    omega
  · intro _
    refine ⟨h2.runs.length, rfl, by rw [hruns], by simp [Heap.newRun], by rw [hkn]; exact a6,
      fun x hx => (a7 x (hkn ▸ hx)).1, ?_⟩
    rw [hlr]
    exact joinTexts_idem _

theorem Frame.mono {n m n' m' : Nat} {h h' : Heap} (f : Frame n m h h') (hn : n' ≤ n) (hm : m' ≤ m) :
    Frame n' m' h h' :=
  ⟨fun i hi => f.texts i (by omega), fun i hi => f.runs i (by omega), f.tlen, f.rlen⟩

/-- merging a run into the one before it -/
theorem LInv.merge {h h2 : Heap} {pr : Nat} {b m acc cs t kids} {o : Nat} {ro : HRun}
    (inv : LInv h (some pr) true b m acc (.run o :: cs)) (hro : h.runs[o]? = some ro)
    (hg : gather h.newText.1 h.newText.2 [] ro.children = (h2, t, kids))
    (htl : Appendable (h.loadRun pr) (h.loadRun o)) :
    LInv (mergeInto h2 pr t kids) (some pr) true b m acc cs ∧
    (mergeInto h2 pr t kids).loadRun pr = (h.loadRun pr).absorb (h.loadRun o) ∧
    Frame b m h (mergeInto h2 pr t kids) := by
  obtain ⟨hinv', _, hrl, f2, hruns, f3⟩ := inv.newRun hro hg
  obtain ⟨_, hpr, hm, hlast, hinc, hge, hjoin⟩ := inv.adjv rfl
  cases hpr
  obtain ⟨p1, p2, p3⟩ := inv.pv pr rfl
  have hold := inv.old (.run o) (by simp)
  have hko : h.kids o = ro.children := by simp [Heap.kids, hro]
  obtain ⟨ho1, ho2, ho3⟩ := hold
  rw [hko] at ho2 ho3
  have hcl : ro.children.map (·.load h.newText.1) = ro.children.map (·.load h) := by
    refine load_congr ?_
    intro i hi
    rw [get_newText, if_neg (by have := ho2 i hi; have := inv.hb; omega)]
  have hnew : h.newText.1.texts[h.texts.length]? = some {} := by simp [Heap.newText]
  have hpk : Proper kids := by
    have := (hinv'.pv _ rfl).2.2
    simpa [Heap.kids, Heap.newRun] using this
  have hgl := gather_load (b := h.texts.length) ro.children h.newText.1 h.texts.length [] "" (Nat.le_refl _)
    hnew ho3 (fun x hx => by have := ho2 x hx; have := inv.hb; omega) (by simp) (by simp)
  have hform : ∃ ts rest, ro.children.map (·.load h.newText.1) = ts ++ rest ∧ (∀ c ∈ ts, ∃ t, c = RChild.text t) ∧ TextLast rest := by
    rw [hcl, ← hko, ← loadRun_children]
    rcases htl with htl | ⟨_, ts, rest, e, h1, h2⟩
    · exact ⟨[], _, rfl, by simp, htl⟩
    · exact ⟨ts, rest, e, h1, h2⟩
  have hgt : ∃ os : List RChild, kids = os.map .other ++ tailOf h2 t ∨
      ((∃ z, (h.loadRun pr).children.getLast? = some (.text z)) ∧ h.texts.length < t ∧ h2.text h.texts.length ≠ "" ∧
        kids = .txt h.texts.length :: (os.map .other ++ tailOf h2 t)) := by
    change gather h.newText.1 h.texts.length [] ro.children = _ at hg
    rcases htl with htl | ⟨hlast, ts, rest, e, h1, h2⟩
    · obtain ⟨a, os, e⟩ := gather_textLast h.texts.length ro.children h.newText.1 h.texts.length [] (Nat.le_refl _)
        (by simp [Heap.newText]) ho3 (fun x hx => by have := ho2 x hx; have := inv.hb; omega)
        (by rw [hcl, ← hko, ← loadRun_children]; exact htl) (.inl (text_of hnew))
      rw [hg] at a e
      simp only at a e
      exact ⟨os, .inl (by rw [e, a, List.nil_append])⟩
    · obtain ⟨os, e⟩ := gather_lead h.texts.length ro.children h.newText.1 h.texts.length [] ts rest (Nat.le_refl _)
        (by simp [Heap.newText]) ho3 (fun x hx => by have := ho2 x hx; have := inv.hb; omega)
        (by rw [hcl, ← hko, ← loadRun_children]; exact e) h1 h2
      rw [hg] at e
      simp only [List.nil_append] at e
      rcases e with e | ⟨e1, e2, e3⟩
      · exact ⟨os, .inl e⟩
      · exact ⟨os, .inr ⟨hlast, e1, e2, e3⟩⟩
  change gather h.newText.1 h.texts.length [] ro.children = _ at hg
  rw [hg] at hgl
  obtain ⟨_, _, _, ⟨s', a4⟩, a5, a6, a7, a8⟩ := hgl
  obtain ⟨os, hkids⟩ := hgt
  simp only at a4 a5 a7 a8
  have hkl : kids.map (·.load h2) = joinTexts (h.loadRun o).children := by
    rw [a8, hcl, loadRun_children, hko]; rfl
  have hk2 : h2.kids pr = h.kids pr := kids_frame f2 (by omega)
  have hl2 : h2.loadRun pr = h.loadRun pr := loadRun_frame f2 (by omega) p2
  have hbt : b ≤ t := Nat.le_trans inv.hb a5
  have hos : ∀ o ∈ os, ∀ t, o ≠ RChild.text t := by
    intro x hx; refine hpk x ?_
    rcases hkids with hkids | ⟨_, _, _, hkids⟩ <;> (rw [hkids]; simp [hx])
  have M : Merged h2 (mergeInto h2 pr t kids) pr t b (kids.map (·.load h2)) := by
    rcases hkids with hkids | ⟨hlastT, hlt, hne, hkids⟩
    · have M := mergeInto_safe (h := h2) (prev := pr) (t := t) (b := b) (os := os) (s := s')
        (by rw [hruns]; exact p1) a4 hbt (by rw [hk2]; exact hinc)
        (by rw [hk2]; exact fun x hx => ⟨hge x hx, Nat.lt_of_lt_of_le (p2 x hx) a5⟩) (by rw [hk2]; exact p3) hos
        (by rw [hl2]; exact hjoin) (by rw [← hkids, hkl]; exact joinTexts_idem _)
      rw [← hkids] at M; exact M
    · -- the first text of the merged run
      have hrefs0 := a7 h.texts.length (by rw [hkids]; simp)
      have hxl : h.texts.length < h2.texts.length := by
        rw [List.getElem?_eq_some_iff] at a4; exact Nat.lt_of_le_of_lt a5 a4.1
      have hx : h2.texts[h.texts.length]? = some h2.texts[h.texts.length] := List.getElem?_eq_getElem hxl
      have hsp : (h2.texts[h.texts.length]).space = "" := by
        refine joinFrom_space (h.loadRun o).children (s := "") ?_
        show _ ∈ joinTexts _
        rw [← hkl, hkids]
        simp [hx]
      rw [← text_eta hsp] at hx
      have M := mergeInto_lead (h := h2) (prev := pr) (t := t) (x := h.texts.length) (b := b) (os := os) (s := s')
        (by rw [hruns]; exact p1) a4 hx (by rw [text_of hx] at hne; exact hne) hlt inv.hb (by rw [hk2]; exact hinc)
        (by rw [hk2]; exact fun x hx => ⟨hge x hx, p2 x hx⟩) (by rw [hk2]; exact p3) hos
        (by rw [hl2]; exact hlastT) (by rw [hl2]; exact hjoin) (joinTexts_others_tail a4 hos)
      rw [← hkids] at M; exact M
  have F := mergeInto_frame (n := b) (m := pr) h2 pr t kids hbt (Nat.le_refl _)
    (Nat.le_trans inv.hb f2.tlen) (by
      intro i hi x hx
      by_cases hip : i = pr
      · subst hip; rw [hk2] at hx; exact hge x hx
      · have : h2.kids i = [] := by
          unfold Heap.kids
          rw [hruns, List.getElem?_eq_none (by omega)]
        rw [this] at hx; simp at hx)
  have f4 : Frame b pr h (mergeInto h2 pr t kids) := (f2.mono inv.hb (by omega)).trans F.1
  have hload : (mergeInto h2 pr t kids).loadRun pr = (h.loadRun pr).absorb (h.loadRun o) := by
    rw [M.load, hl2, hkl, joinTexts_append_join]; rfl
  subst hm
  refine ⟨⟨Nat.le_trans inv.hb f4.tlen, Nat.le_trans inv.hm f4.rlen, ?_, ?_, ?_⟩, hload, f4⟩
  · intro c hc
    refine ((inv.old c ?_).frame f4).1
    simp only [List.mem_append, List.mem_cons] at hc ⊢
    rcases hc with hc | hc
    · exact .inl hc
    · exact .inr (.inr hc)
  · intro q hq
    cases hq
    refine ⟨by rw [M.rlen, hruns]; exact p1, ?_, M.proper⟩
    intro x hx
    have h1 := M.bnd x hx
    have h2' := M.tlen
    have h3 : t < h2.texts.length := by
      rw [List.getElem?_eq_some_iff] at a4; exact a4.1
    omega
  · intro _
    refine ⟨m, rfl, rfl, by rw [M.rlen, hruns]; exact hlast, M.inc, fun x hx => (M.bnd x hx).1, ?_⟩
    rw [hload]
    exact joinTexts_idem _

theorem mergeLoop_safe (rule : MergeRule) : ∀ (cs : List HPC) (h : Heap) (prev : Option Nat) (adj : Bool)
    (b m : Nat) (acc : List HPC), LInv h prev adj b m acc cs →
    SafeFrom rule (prev.map h.loadRun) adj (cs.map (·.load h)) →
    (mergeLoop rule h prev (acc ++ emitPtr prev adj) cs).2.map
        (·.load (mergeLoop rule h prev (acc ++ emitPtr prev adj) cs).1) =
      acc.map (·.load h) ++ mergeFrom rule (prev.map h.loadRun) adj (cs.map (·.load h)) := by
  intro cs
  induction cs with
  | nil =>
    intro h prev adj b m acc inv _
    simp only [mergeLoop, List.map_nil, List.map_append, emit_load]
    cases prev <;> rfl
  | cons c cs ih =>
    intro h prev adj b m acc inv hs
    cases c with
    | other c =>
      have hc : ∀ r, c ≠ .run r := inv.old (.other c) (by simp)
      have hs' : SafeFrom rule (prev.map h.loadRun) false (cs.map (·.load h)) := by
        cases c with
        | run r => exact absurd rfl (hc r)
        | link l => cases prev <;> exact hs
        | rpr l => cases prev <;> exact hs
      have inv' : LInv h prev false h.texts.length h.runs.length (acc ++ emitPtr prev adj ++ [.other c]) cs := by
        refine ⟨Nat.le_refl _, Nat.le_refl _, ?_, inv.pv, by simp⟩
        intro d hd
        simp only [List.mem_append, List.mem_singleton] at hd
        rcases hd with ((hd | hd) | hd) | hd
        · exact (inv.old d (by simp [hd])).mono inv.hb inv.hm
        · cases prev with
          | none => simp [emitPtr] at hd
          | some pr =>
            cases adj with
            | false => simp [emitPtr] at hd
            | true =>
              simp only [emitPtr, List.mem_singleton] at hd
              subst hd; exact inv.pv pr rfl
        · subst hd; exact hc
        · exact (inv.old d (by simp [hd])).mono inv.hb inv.hm
      have := ih h prev false _ _ _ inv' hs'
      have e0 : emitPtr prev false = [] := by cases prev <;> rfl
      rw [e0, List.append_nil] at this
      simp only [mergeLoop]
      rw [this]
      simp only [List.map_append, emit_load, List.map_cons, List.map_nil, HPC.load_other, List.append_assoc]
      congr 1
      cases c with
      | run r => exact absurd rfl (hc r)
      | link l => cases prev <;> simp [mergeFrom]
      | rpr l => cases prev <;> simp [mergeFrom]
    | run o =>
      have hoold := inv.old (.run o) (by simp)
      have hol : o < h.runs.length := Nat.lt_of_lt_of_le hoold.1 inv.hm
      obtain ⟨ro, hro⟩ : ∃ r, h.runs[o]? = some r := ⟨_, List.getElem?_eq_getElem hol⟩
      simp only [mergeLoop, hro]
      generalize hg : gather h.newText.1 h.newText.2 [] ro.children = g
      obtain ⟨h2, t, kids⟩ := g
      simp only
      obtain ⟨inv', hlr, hrl, f2, hruns, f3⟩ := inv.newRun hro hg
      have hcs : ∀ d ∈ cs, d.Old h.texts.length h.runs.length h := fun d hd =>
        (inv.old d (by simp [hd])).mono inv.hb inv.hm
      have hacc : ∀ d ∈ acc ++ emitPtr prev adj, d.Old h.texts.length h.runs.length h := by
        intro d hd
        simp only [List.mem_append] at hd
        rcases hd with hd | hd
        · exact (inv.old d (by simp [hd])).mono inv.hb inv.hm
        · cases prev with
          | none => simp [emitPtr] at hd
          | some pr =>
            cases adj with
            | false => simp [emitPtr] at hd
            | true =>
              simp only [emitPtr, List.mem_singleton] at hd
              subst hd; exact inv.pv pr rfl
      -- putting out the run on its own
      have fresh : SafeFrom rule (some (h.loadRun o).joined) true (cs.map (·.load h)) →
          (mergeLoop rule (h2.newRun { ro with children := kids }).1 (some h2.runs.length)
              (acc ++ emitPtr prev adj ++ [.run h2.runs.length]) cs).2.map
            (·.load (mergeLoop rule (h2.newRun { ro with children := kids }).1 (some h2.runs.length)
              (acc ++ emitPtr prev adj ++ [.run h2.runs.length]) cs).1) =
            acc.map (·.load h) ++ (emitRun (prev.map h.loadRun) adj ++
              mergeFrom rule (some (h.loadRun o).joined) true (cs.map (·.load h))) := by
        intro hsafe
        have hmc := map_load_frame f3 hcs
        have := ih _ _ _ _ _ _ inv' (by rw [hmc, Option.map_some, hlr]; exact hsafe)
        rw [hmc, Option.map_some, hlr, map_load_frame f3 hacc] at this
        simp only [List.map_append, emit_load, List.append_assoc] at this
        simp only [List.append_assoc]
        exact this
      cases prev with
      | none =>
        have e0 : emitRun none adj = [] := by cases adj <;> rfl
        have := fresh hs
        simp only [Option.map_none, e0, List.nil_append] at this
        exact this
      | some pr =>
        simp only [hrl]
        have hpr := inv.pv pr rfl
        have hl2 : h2.loadRun pr = h.loadRun pr := loadRun_frame f2 hpr.1 hpr.2.1
        rw [hl2]
        simp only [List.map_cons, HPC.load_run, Option.map_some, SafeFrom] at hs
        by_cases hrule : rule (h.loadRun pr) (h.loadRun o).joined = true
        · rw [if_pos hrule] at hs
          obtain ⟨hadj, htl, hsafe⟩ := hs
          subst hadj
          obtain ⟨inv2, hload, f4⟩ := inv.merge hro hg htl
          have hmc := map_load_frame f4 (cs := cs) fun d hd => inv.old d (by simp [hd])
          have := ih _ _ _ _ _ _ inv2 (by rw [hmc, Option.map_some, hload]; exact hsafe)
          rw [hmc, Option.map_some, hload,
            map_load_frame f4 (cs := acc) fun d hd => inv.old d (by simp [hd])] at this
          simp only [if_pos hrule]
          rw [this]
          simp only [List.map_cons, HPC.load_run, Option.map_some, mergeFrom, if_pos hrule]
        · rw [if_neg hrule] at hs
          simp only [if_neg hrule]
          refine (fresh hs).trans ?_
          simp only [List.map_cons, HPC.load_run, Option.map_some, mergeFrom, if_neg hrule]

/-- runs are always put behind pointers -/
theorem allocPChildren_other : ∀ (l : List PChild) (h : Heap) (c : PChild), HPC.other c ∈ (allocPChildren h l).2 → ∀ r, c ≠ .run r := by
  intro l
  induction l with
  | nil => intro h c hc; simp [allocPChildren] at hc
  | cons d l ih =>
    intro h c hc
    cases d with
    | run r =>
      simp only [allocPChildren, List.mem_cons, reduceCtorEq, false_or] at hc
      exact ih _ c hc
    | link x =>
      simp only [allocPChildren, List.mem_cons, HPC.other.injEq] at hc
      rcases hc with rfl | hc
      · simp
      · exact ih _ c hc
    | rpr x =>
      simp only [allocPChildren, List.mem_cons, HPC.other.injEq] at hc
      rcases hc with rfl | hc
      · simp
      · exact ih _ c hc

/-- `MergeText` computes what it is meant to compute whenever every merge is safe. -/
theorem mergeText_safe (p : Para) (rule : MergeRule) (hs : p.MergeSafe rule) :
    (p.mergeText rule).children = mergeFrom rule none false p.children := by
  obtain ⟨⟨ts, rs, e⟩, hok, hload⟩ := allocPChildren_spec p.children ⟨[], []⟩
  unfold Para.mergeText
  generalize hg : allocPChildren ⟨[], []⟩ p.children = g at e hok hload
  obtain ⟨h, cs⟩ := g
  simp only at e hok hload ⊢
  have := mergeLoop_safe rule cs h none false h.texts.length h.runs.length [] ⟨Nat.le_refl _, Nat.le_refl _, ?_, by simp, by simp⟩ (by rw [hload]; exact hs)
  · simp only [emitPtr, List.append_nil, hload, List.map_nil, List.nil_append, Option.map_none] at this
    exact this
  · intro c hc
    rw [List.nil_append] at hc
    cases c with
    | run i => exact hok _ hc
    | other c =>
      refine allocPChildren_other p.children ⟨[], []⟩ c ?_
      rw [hg]; exact hc

end Docx
