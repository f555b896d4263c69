import Verif.SpecTidy
import Verif.Props.Text

/-!
# C93: cleaning calls can be made in any order, any number of times
-/

namespace Docx

/-! ## The calls commute and are idempotent -/

theorem mapParas_comp (g h : Para → Para) (items : List BItem) :
    mapParas g (mapParas h items) = mapParas (fun p => g (h p)) items := by
  unfold mapParas
  rw [List.map_map]
  refine List.map_congr_left fun x _ => ?_
  cases x <;> simp [Function.comp_def]

theorem mapParas_keep (g : Para → Para) (names : List String) (items : List BItem) :
    mapParas g (keepBody names items) = keepBody names (mapParas g items) := by
  rw [(C21_keep names).1, (C21_keep names).1]
  unfold mapParas
  rw [List.filter_map]
  congr 1
  refine List.filter_congr fun x _ => ?_
  cases x <;> rfl

theorem without_none (p : Para) : p.without (fun _ => false) = p := by
  have : PChild.without (fun _ => false) = id := by
    funext c
    cases c with
    | run r =>
      have h : r.children.filter (fun c => !c.isBad fun _ => false) = r.children :=
        List.filter_eq_self.2 fun c _ => by cases c <;> rfl
      show PChild.run { r with children := _ } = PChild.run r
      rw [h]; cases r; rfl
    | _ => rfl
  show { p with children := p.children.map _ } = p
  rw [this, List.map_id]; cases p; rfl

/-- Every drop removes the drawings that fulfil some condition -/
theorem dropPara_without (name : String) : ∃ bad, dropPara name = fun p => p.without bad := by
  by_cases h1 : name = "Canvas"
  · subst h1; exact ⟨_, funext fun p => (C22_drop p).1⟩
  by_cases h2 : name = "Shape"
  · subst h2; exact ⟨_, funext fun p => (C22_drop p).2.1⟩
  by_cases h3 : name = "Group"
  · subst h3; exact ⟨_, funext fun p => (C22_drop p).2.2.1⟩
  by_cases h4 : name = "ShapeAndCanvas"
  · subst h4; exact ⟨_, funext fun p => (C22_drop p).2.2.2.1⟩
  by_cases h5 : name = "ShapeAndCanvasAndGroup"
  · subst h5; exact ⟨_, funext fun p => (C22_drop p).2.2.2.2⟩
  by_cases h6 : name = "NilPicture"
  · subst h6; exact ⟨_, funext fun p => dropNilPicture_eq p⟩
  · refine ⟨fun _ => false, funext fun p => ?_⟩
    rw [without_none]
    simp [dropPara, dropMethod, h1, h2, h3, h4, h5, h6]

theorem clean_comm (a b : CleanCall) (items : List BItem) :
    b.run (items := a.run items) = a.run (items := b.run items) := by
  cases a with
  | keep ns =>
    cases b with
    | keep ms =>
      simp only [CleanCall.run, (C21_keep _).1, List.filter_filter]
      refine List.filter_congr fun x _ => ?_
      rw [Bool.and_comm]
    | drop n => simp only [CleanCall.run, dropDrawingOf_eq, mapParas_keep]
  | drop n =>
    cases b with
    | keep ms => simp only [CleanCall.run, dropDrawingOf_eq, mapParas_keep]
    | drop m =>
      obtain ⟨b1, h1⟩ := dropPara_without n
      obtain ⟨b2, h2⟩ := dropPara_without m
      simp only [CleanCall.run, dropDrawingOf_eq, mapParas_comp, h1, h2, without_without, Bool.or_comm]

theorem clean_twice (a : CleanCall) (items : List BItem) : a.run (items := a.run items) = a.run items := by
  cases a with
  | keep ns => exact (C21_idempotent ns).1 items
  | drop n =>
    obtain ⟨b1, h1⟩ := dropPara_without n
    simp only [CleanCall.run, dropDrawingOf_eq, mapParas_comp, h1, without_without, Bool.or_self]

theorem cleaned_append (items : List BItem) (as bs : List CleanCall) :
    cleaned items (as ++ bs) = cleaned (cleaned items as) bs := List.foldl_append

theorem cleaned_run (a : CleanCall) (items : List BItem) (cs : List CleanCall) :
    cleaned (a.run (items := items)) cs = a.run (items := cleaned items cs) := by
  induction cs generalizing items with
  | nil => rfl
  | cons c cs ih =>
    show cleaned (c.run (items := a.run items)) cs = a.run (items := cleaned (c.run items) cs)
    rw [clean_comm a c, ih]

theorem cleaned_absorb (a : CleanCall) (items : List BItem) (cs : List CleanCall) (h : a ∈ cs) :
    a.run (items := cleaned items cs) = cleaned items cs := by
  induction cs generalizing items with
  | nil => cases h
  | cons c cs ih =>
    show a.run (items := cleaned (c.run items) cs) = cleaned (c.run items) cs
    rcases List.mem_cons.1 h with rfl | h
    · rw [cleaned_run, clean_twice]
    · exact ih _ h

theorem cleaned_sub (items : List BItem) (as bs : List CleanCall) (h : ∀ a ∈ as, a ∈ bs) :
    cleaned (cleaned items as) bs = cleaned items bs := by
  induction as generalizing items with
  | nil => rfl
  | cons a as ih =>
    show cleaned (cleaned (a.run items) as) bs = cleaned items bs
    rw [ih _ fun x hx => h x (.tail _ hx), cleaned_run, cleaned_absorb a items bs (h a (.head _))]

theorem cleaned_swap (items : List BItem) (as bs : List CleanCall) :
    cleaned (cleaned items as) bs = cleaned (cleaned items bs) as := by
  induction as generalizing items with
  | nil => rfl
  | cons a as ih =>
    show cleaned (cleaned (a.run items) as) bs = cleaned (a.run (cleaned items bs)) as
    rw [ih, cleaned_run]

/-! ## C93 -/

/-- **C93.** What a body looks like after `KeepElements` and `DropDrawingOf` calls depends only on which
calls were made, not on their order or how often. -/
theorem C93_any_order (items : List BItem) (as bs : List CleanCall) (h : ∀ c, c ∈ as ↔ c ∈ bs) :
    cleaned items as = cleaned items bs := by
  rw [← cleaned_sub items as bs fun a ha => (h a).1 ha, cleaned_swap,
    cleaned_sub items bs as fun a ha => (h a).2 ha]

/-- C93: a body that was cleaned stays as it is when it is cleaned again. -/
theorem C93_again (items : List BItem) (calls : List CleanCall) :
    cleaned (cleaned items calls) calls = cleaned items calls :=
  cleaned_sub items calls calls fun _ h => h

theorem filterMap_filter_same {α β : Type} (f : α → Option β) (q : α → Bool) (l : List α)
    (h : ∀ x, q x = false → f x = none) : (l.filter q).filterMap f = l.filterMap f := by
  induction l with
  | nil => rfl
  | cons x xs ih =>
    cases hq : q x with
    | true => rw [List.filter_cons_of_pos hq, List.filterMap_cons, List.filterMap_cons, ih]
    | false => rw [List.filter_cons_of_neg (by simp [hq]), List.filterMap_cons_none (h x hq), ih]

theorem paraTexts_without (bad : Drawing → Bool) (p : Para) : paraTexts (p.without bad) = paraTexts p := by
  unfold paraTexts Para.without
  rw [List.flatMap_map]
  refine congrArg (fun g => p.children.flatMap g) (funext fun c => ?_)
  cases c with
  | run r =>
    show runTexts { r with children := _ } = runTexts r
    exact filterMap_filter_same _ _ r.children fun x h => by
      cases x with
      | drawing d => rfl
      | _ => simp [RChild.isBad] at h
  | _ => rfl

theorem bodyTexts_drop (name : String) (items : List BItem) :
    bodyTexts (dropDrawingOf name items) = bodyTexts items := by
  obtain ⟨bad, h⟩ := dropPara_without name
  rw [dropDrawingOf_eq, h]
  unfold bodyTexts mapParas
  rw [List.map_map]
  refine List.map_congr_left fun x _ => ?_
  cases x <;> simp [Function.comp_def, paraTexts_without]

theorem keptByAll_mapParas (calls : List CleanCall) (g : Para → Para) (items : List BItem) :
    (mapParas g items).filter (keptByAll calls) = mapParas g (items.filter (keptByAll calls)) := by
  unfold mapParas
  rw [List.filter_map]
  congr 1
  refine List.filter_congr fun x _ => ?_
  cases x <;> rfl

/-- C93: the texts (of runs and links, not those inside drawings) are those of the items that every
`KeepElements` keeps, all of them and unchanged. -/
theorem C93_texts (items : List BItem) (calls : List CleanCall) :
    bodyTexts (cleaned items calls) = bodyTexts (items.filter (keptByAll calls)) := by
  induction calls generalizing items with
  | nil =>
    have : items.filter (keptByAll []) = items := List.filter_eq_self.2 fun _ _ => rfl
    rw [this]
    rfl
  | cons c cs ih =>
    show bodyTexts (cleaned (c.run (items := items)) cs) = _
    rw [ih]
    cases c with
    | keep ns =>
      rw [CleanCall.run, (C21_keep ns).1, List.filter_filter]
      refine congrArg bodyTexts (List.filter_congr fun x _ => ?_)
      simp [keptByAll, Bool.and_comm]
    | drop n =>
      rw [CleanCall.run, dropDrawingOf_eq, keptByAll_mapParas, ← dropDrawingOf_eq, bodyTexts_drop]
      exact congrArg bodyTexts (List.filter_congr fun x _ => by simp [keptByAll])

/-! ## Cases -/

/-- A paragraph with a text and a shape, and a section -/
def messyBody : List BItem :=
  [.para { children := [.run { children := [.text { text := "a" },
    .drawing { inl := some { graphic := some { data := some { shape := some {} } } } }] }] }, .sect {}]

example : cleaned messyBody [.keep ["*docx.Paragraph"], .drop "Shape"] =
      cleaned messyBody [.drop "Shape", .keep ["*docx.Paragraph"], .drop "Shape"] ∧
    cleaned messyBody [.keep ["*docx.Paragraph"], .drop "Shape"] =
      [.para { children := [.run { children := [.text { text := "a" }] }] }] ∧
    bodyTexts messyBody = [[[[["a"]]]], []] ∧
    bodyTexts (messyBody.filter (keptByAll [.keep ["*docx.Paragraph"]])) = [[[[["a"]]]]] :=
  ⟨C93_any_order _ _ _ (by intro c; simp only [List.mem_cons, List.not_mem_nil, or_false]; constructor <;> rintro (h | h) <;> simp_all), rfl, rfl, rfl⟩

end Docx
