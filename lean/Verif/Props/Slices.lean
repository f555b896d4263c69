import Verif.Lemmas.Slices

/-!
# C65: documents made from the same slice are independent
-/

set_option linter.unusedSectionVars false

namespace Docx

variable {α : Type} [Inhabited α] {grow : Nat → Nat}

/-- The calls that add to a body or to the media of a document append one element to the list: what `push`
stands for (`AddParagraph`, `AddTable`, `AddTableTwips`, `WithA3Page`, `WithA4Page`; the media of a picture). -/
theorem C65_calls_push (f : Doc) (self : DocId) :
    (∃ x, (f.addParagraph self).items = f.items ++ [x]) ∧ (∃ x, f.withA3Page.items = f.items ++ [x]) ∧
    (∃ x, f.withA4Page.items = f.items ++ [x]) ∧
    (∀ r c w cs f' t cs', f.addTable self r c w cs = .ok (f', t, cs') → ∃ x, f'.items = f.items ++ [x]) ∧
    (∀ rs cs w bs, ∃ x, (f.addTableTwips self rs cs w bs).1.items = f.items ++ [x]) ∧
    (∀ m, (f.addMedia m).media = f.media ++ [m]) := by
  refine ⟨⟨_, rfl⟩, ⟨_, rfl⟩, ⟨_, rfl⟩, ?_, fun rs cs w bs => ⟨_, rfl⟩, fun m => rfl⟩
  intro r c w cs f' t cs' h
  simp only [Doc.addTable] at h
  split at h
  · cases h
  · split at h
    · cases h
    · simp only [Res.ok.injEq, Prod.mk.injEq] at h
      obtain ⟨rfl, _, _⟩ := h
      exact ⟨_, rfl⟩

/-- **Clipped slices.**  If every slice handed to `LoadBodyItems` has no room behind its end, documents never
influence each other: each behaves as if it had a list of its own, whatever is done to the others. -/
theorem C65_clipped_partial {w w' : SWorld α} (h : SReach grow w) {o : SOp α} (hc : o.Clipped w)
    (hs : w.step grow o = some w') : w'.lists = listStep w.lists o := by
  have ok := all_ok (reach_all h)
  have ap := reach_apart h
  cases o with
  | fresh xs cap =>
    simp only [SWorld.step, Option.some.injEq] at hs
    subst hs
    simp only [SWorld.lists, listStep, List.map_append, List.map_cons, List.map_nil, alloc_get]
    congr 1
    exact List.map_congr_left fun s hm => (alloc_old (ok s hm) xs cap).2.1
  | load d a b c =>
    simp only [SWorld.step, Option.bind_eq_bind, Option.bind_eq_some_iff, Option.some.injEq] at hs
    obtain ⟨s, h1, t, h2, rfl⟩ := hs
    obtain ⟨rfl, hb⟩ := hc
    have hb := hb s h1
    obtain ⟨_, e1, e2, e3, rfl⟩ := sub_in (ok s (List.mem_of_getElem? h1)) h2
    obtain ⟨x, hx, _⟩ := arr_of_in (ok s (List.mem_of_getElem? h1))
    simp only [SWorld.lists, listStep, List.map_append, List.map_cons, List.map_nil, List.getElem?_map, h1, Option.map_some,
      Option.getD_some]
    congr 2
    rw [get_eq (s := ⟨s.arr, s.off + a, c - a, c - a⟩) hx, get_eq hx]
    simp only [List.drop_take, List.drop_drop, List.take_take]
    congr 1
    omega
  | push d x =>
    simp only [SWorld.step, Option.bind_eq_bind, Option.bind_eq_some_iff, Option.some.injEq] at hs
    obtain ⟨s, h1, rfl⟩ := hs
    refine lists_set h1 (append_self grow (ok s (List.mem_of_getElem? h1)) x) ?_
    intro e t hne he
    rw [append_other grow (ok t (List.mem_of_getElem? he)), if_neg]
    rintro ⟨a1, a2, a3, a4⟩
    have := (ap d e s t (Ne.symm hne) h1 he a1 a2).2
    omega
  | keep d p =>
    simp only [SWorld.step, Option.bind_eq_bind, Option.bind_eq_some_iff, Option.some.injEq] at hs
    obtain ⟨s, h1, rfl⟩ := hs
    refine lists_set h1 (alloc_get _ _ _) ?_
    intro e t hne he
    exact (alloc_old (ok t (List.mem_of_getElem? he)) _ _).2.1

/-- **Exactly when a document is damaged.**  In every history, adding `x` to document `d` puts `x` at the end
of its list; it changes the list of another document `e` exactly when both use the same array, `d` has room
in it, and the next cell of `d` is one of the cells of `e`: that element of `e` is then replaced by `x`. -/
theorem C65_exact {w w' : SWorld α} (h : SAll grow w) {d e : Nat} {s t : Slc} (hd : w.docs[d]? = some s)
    (he : w.docs[e]? = some t) (hne : e ≠ d) {x : α} (hs : w.step grow (.push d x) = some w') :
    w'.lists[d]? = some (w.arrs.get s ++ [x]) ∧
    w'.lists[e]? = some (if s.arr = t.arr ∧ s.len < s.cap ∧ t.off ≤ s.off + s.len ∧ s.off + s.len < t.off + t.len then
      (w.arrs.get t).set (s.off + s.len - t.off) x else w.arrs.get t) := by
  have ok := all_ok h
  simp only [SWorld.step, Option.bind_eq_bind, Option.bind_eq_some_iff, Option.some.injEq] at hs
  obtain ⟨s', h1, rfl⟩ := hs
  rw [hd] at h1
  obtain rfl := Option.some.inj h1
  have hl : d < w.docs.length := (List.getElem?_eq_some_iff.1 hd).1
  constructor
  · rw [lists_get]
    rw [List.getElem?_set, if_pos rfl, if_pos hl, Option.map_some, append_self grow (ok s (List.mem_of_getElem? hd))]
  · rw [lists_get]
    simp only [List.getElem?_set]
    rw [if_neg (Ne.symm hne), he, Option.map_some, append_other grow (ok t (List.mem_of_getElem? he))]

/-- **A prefix is damaged, always.**  For every document of every history and every proper prefix of its list:
after `LoadBodyItems(items[:b], ...)`, the first element added to the new document replaces element `b` of the
old one. -/
theorem C65_prefix_overwritten {w : SWorld α} (h : SAll grow w) {d b : Nat} {s : Slc} (hd : w.docs[d]? = some s)
    (hb : b < s.len) (x : α) :
    ∃ w', w.steps grow [.load d 0 b s.cap, .push w.docs.length x] = some w' ∧
      w'.lists[d]? = some ((w.arrs.get s).set b x) := by
  have ok := all_ok h
  have hin := ok s (List.mem_of_getElem? hd)
  have hl := hin.len
  have hdl : d < w.docs.length := (List.getElem?_eq_some_iff.1 hd).1
  have h1 : w.step grow (.load d 0 b s.cap) = some ⟨w.arrs, w.docs ++ [⟨s.arr, s.off + 0, b - 0, s.cap - 0⟩]⟩ := by
    simp only [SWorld.step, hd, Slc.sub, Option.bind_eq_bind, Option.bind_some]
    rw [if_pos ⟨Nat.zero_le _, by omega, Nat.le_refl _⟩]
    rfl
  have hall := SAll.step h h1
  have hn : (w.docs ++ [(⟨s.arr, s.off + 0, b - 0, s.cap - 0⟩ : Slc)])[w.docs.length]? = some ⟨s.arr, s.off + 0, b - 0, s.cap - 0⟩ := by
    simp
  have ho : (w.docs ++ [(⟨s.arr, s.off + 0, b - 0, s.cap - 0⟩ : Slc)])[d]? = some s := by
    rw [List.getElem?_append_left hdl, hd]
  obtain ⟨w', h2⟩ : ∃ w', SWorld.step grow ⟨w.arrs, w.docs ++ [⟨s.arr, s.off + 0, b - 0, s.cap - 0⟩]⟩ (.push w.docs.length x) = some w' :=
    ⟨_, by simp only [SWorld.step, hn, Option.bind_eq_bind, Option.bind_some]; rfl⟩
  refine ⟨w', by simp only [SWorld.steps, h1, h2, Option.bind_some], ?_⟩
  refine ((C65_exact hall hn ho (Nat.ne_of_lt hdl) h2).2).trans ?_
  rw [if_pos]
  · simp
  · refine ⟨rfl, ?_, ?_, ?_⟩ <;> simp only <;> omega

/-- **The same slice twice.**  For every document whose slice has room: when a second document is made from
the same slice and both are added to, the first shows the element of the second. -/
theorem C65_same_slice {w : SWorld α} (h : SAll grow w) {d : Nat} {s : Slc} (hd : w.docs[d]? = some s) (hr : s.len < s.cap)
    (x y : α) :
    ∃ w', w.steps grow [.load d 0 s.len s.cap, .push d x, .push w.docs.length y] = some w' ∧
      w'.lists[d]? = some (w.arrs.get s ++ [y]) := by
  have ok := all_ok h
  have hin := ok s (List.mem_of_getElem? hd)
  have hdl : d < w.docs.length := (List.getElem?_eq_some_iff.1 hd).1
  have h1 : w.step grow (.load d 0 s.len s.cap) = some ⟨w.arrs, w.docs ++ [s]⟩ := by
    simp only [SWorld.step, hd, Slc.sub, Option.bind_eq_bind, Option.bind_some]
    rw [if_pos ⟨Nat.zero_le _, Nat.le_of_lt hr, Nat.le_refl _⟩]
    rfl
  have a1 := SAll.step h h1
  have ho : (w.docs ++ [s])[d]? = some s := by rw [List.getElem?_append_left hdl, hd]
  have h2 : SWorld.step grow ⟨w.arrs, w.docs ++ [s]⟩ (.push d x) =
      some ⟨(w.arrs.append grow s x).1, (w.docs ++ [s]).set d (w.arrs.append grow s x).2⟩ := by
    simp only [SWorld.step, ho, Option.bind_eq_bind, Option.bind_some]
  have a2 := SAll.step a1 h2
  have e1 : ((w.docs ++ [s]).set d (w.arrs.append grow s x).2)[w.docs.length]? = some s := by
    rw [List.getElem?_set, if_neg (Nat.ne_of_lt hdl)]; simp
  have e2 : ((w.docs ++ [s]).set d (w.arrs.append grow s x).2)[d]? = some (w.arrs.append grow s x).2 := by
    rw [List.getElem?_set, if_pos rfl, if_pos (by simp; omega)]
  obtain ⟨w', h3⟩ : ∃ w', SWorld.step grow ⟨(w.arrs.append grow s x).1, (w.docs ++ [s]).set d (w.arrs.append grow s x).2⟩
      (.push w.docs.length y) = some w' :=
    ⟨_, by simp only [SWorld.step, e1, Option.bind_eq_bind, Option.bind_some]; rfl⟩
  refine ⟨w', by simp only [SWorld.steps, h1, h2, h3, Option.bind_some], ?_⟩
  refine ((C65_exact a2 e1 e2 (Nat.ne_of_lt hdl) h3).2).trans ?_
  have hp : (w.arrs.append grow s x).2 = { s with len := s.len + 1 } := by rw [append_place grow hr]
  rw [append_self grow hin, if_pos (by rw [hp]; refine ⟨rfl, hr, ?_, ?_⟩ <;> simp only <;> omega), hp]
  simp only [Nat.add_sub_cancel_left]
  congr 1
  have := get_length hin
  rw [List.set_append_right _ _ (by omega), this]
  simp

/-! ## Concrete cases -/

/-- Witness with paragraphs: a document with two paragraphs; the first is loaded into a new document, and a
paragraph is added to that.  The second paragraph of the old document is gone. -/
theorem C65_paragraph_lost : ∃ w, SWorld.steps (α := String) (fun n => 2 * n)
      {} [.fresh ["one", "two"] 4, .load 0 0 1 4, .push 1 "new"] = some w ∧
    w.lists = [["one", "new"], ["one", "new"]] :=
  ⟨_, rfl, by decide⟩

/-- The same with a clipped slice -/
example : ∃ w, SWorld.steps (α := String) (fun n => 2 * n)
      {} [.fresh ["one", "two"] 4, .load 0 0 1 1, .push 1 "new", .push 0 "three", .keep 1 (· != "one"), .push 1 "more"] = some w ∧
    w.lists = [["one", "two", "three"], ["new", "more"]] :=
  ⟨_, rfl, by decide⟩

/-- Such a history is one of `SReach` -/
example : ∃ w : SWorld String, SReach (fun n => 2 * n) w ∧ w.lists = [["one", "two"], ["one", "new"]] := by
  refine ⟨_, .step (o := .push 1 "new") (.step (o := .load 0 0 1 1) (.step (o := .fresh ["one", "two"] 4) .start trivial rfl) ?_ rfl) trivial rfl, by decide⟩
  exact ⟨rfl, fun s hs => by cases hs; decide⟩

/-- Media: two documents are made with the same media, and a picture is added to each: the first document
has the picture of the second under the name of its own (here the media are names and contents) -/
example : ∃ w, SWorld.steps (α := String × List Nat) (fun n => 2 * n)
      {} [.fresh [("logo.png", [1])] 2, .load 0 0 1 2, .push 0 ("image1.png", [10]), .push 1 ("image1.png", [20])] = some w ∧
    w.lists = [[("logo.png", [1]), ("image1.png", [20])], [("logo.png", [1]), ("image1.png", [20])]] :=
  ⟨_, rfl, by decide⟩

end Docx
