import Verif.Spec
import Verif.Lemmas.Ids

/-! # Lemmas about `String` -/

namespace Docx

variable [HashEnv]

theorem rchildrenStr_append (w : World) (xs ys : List RChild) :
    rchildrenStr w (xs ++ ys) = (do
      let a ← rchildrenStr w xs
      let b ← rchildrenStr w ys
      return a ++ b) := by
  induction xs with
  | nil =>
    simp only [List.nil_append, rchildrenStr, Res.bind_ok, String.empty_append]
    cases rchildrenStr w ys <;> rfl
  | cons x xs ih =>
    simp only [List.cons_append, rchildrenStr, ih]
    cases RChild.str w x with
    | ok a =>
      cases rchildrenStr w xs with
      | ok b =>
        cases rchildrenStr w ys <;> simp [String.append_assoc]
      | _ => rfl
    | _ => rfl

theorem pchildrenStr_append (w : World) (file : Option DocId) (xs ys : List PChild) :
    pchildrenStr w file (xs ++ ys) = (do
      let a ← pchildrenStr w file xs
      let b ← pchildrenStr w file ys
      return a ++ b) := by
  induction xs with
  | nil =>
    simp only [List.nil_append, pchildrenStr, Res.bind_ok, String.empty_append]
    cases pchildrenStr w file ys <;> rfl
  | cons x xs ih =>
    simp only [List.cons_append, pchildrenStr, ih]
    cases PChild.str w file x with
    | ok a =>
      cases pchildrenStr w file xs with
      | ok b =>
        cases pchildrenStr w file ys <;> simp [String.append_assoc]
      | _ => rfl
    | _ => rfl

theorem str_addRun (w : World) (p : Para) (r : Run) (s : String)
    (hr : rchildrenStr w r.children = .ok s) :
    (p.addRun r).str w = (do let a ← p.str w; return a ++ s) := by
  unfold Para.str Para.addRun
  rw [pchildrenStr_append]
  simp only [pchildrenStr, PChild.str, hr, Res.bind_ok, Res.pure_eq, String.append_empty]

/-- The characters of pieces joined with a separator in front of every piece but the first. -/
def joinSep (sep : Char) (first : Bool) : List (List Char) → List Char
  | [] => []
  | k :: ks => (if first then [] else [sep]) ++ k ++ joinSep sep false ks

omit [HashEnv] in
theorem joinSep_splitOn (sep : Char) (cs : List Char) : joinSep sep true (splitOn sep cs) = cs := by
  have ne : ∀ cs, splitOn sep cs ≠ [] := by
    intro cs
    cases cs with
    | nil => simp [splitOn]
    | cons c cs =>
      unfold splitOn
      split
      · simp
      · split <;> simp
  induction cs with
  | nil => simp [splitOn, joinSep]
  | cons c cs ih =>
    unfold splitOn
    split
    · rename_i e
      subst e
      cases hs : splitOn c cs with
      | nil => exact absurd hs (ne _)
      | cons x xs =>
        rw [hs] at ih
        simp only [joinSep] at ih ⊢
        simpa using ih
    · cases hs : splitOn sep cs with
      | nil => exact absurd hs (ne _)
      | cons x xs =>
        rw [hs] at ih
        simp only [joinSep] at ih ⊢
        simpa using ih

omit [HashEnv] in
theorem splitOn_notMem (sep : Char) (cs : List Char) : ∀ k ∈ splitOn sep cs, sep ∉ k := by
  induction cs with
  | nil => simp [splitOn]
  | cons c cs ih =>
    unfold splitOn
    split
    · intro k hk
      simp only [List.mem_cons] at hk
      rcases hk with rfl | hk
      · simp
      · exact ih k hk
    · rename_i hc
      split
      · intro k hk
        simp only [List.mem_singleton] at hk
        subst hk; simp; exact fun h => hc h.symm
      · rename_i x xs hs
        rw [hs] at ih
        intro k hk
        simp only [List.mem_cons] at hk
        rcases hk with rfl | hk
        · intro hm
          simp only [List.mem_cons] at hm
          rcases hm with rfl | hm
          · exact hc rfl
          · exact ih x (by simp) hm
        · exact ih k (by simp [hk])

omit [HashEnv] in
theorem splitOn_sub (sep : Char) (cs : List Char) : ∀ k ∈ splitOn sep cs, ∀ c ∈ k, c ∈ cs := by
  induction cs with
  | nil => simp [splitOn]
  | cons c cs ih =>
    unfold splitOn
    split
    · intro k hk x hx
      simp only [List.mem_cons] at hk
      rcases hk with rfl | hk
      · simp at hx
      · exact List.mem_cons_of_mem _ (ih k hk x hx)
    · split
      · intro k hk x hx
        simp only [List.mem_singleton] at hk
        subst hk; simp only [List.mem_singleton] at hx; subst hx; simp
      · rename_i y ys hs
        rw [hs] at ih
        intro k hk x hx
        simp only [List.mem_cons] at hk
        rcases hk with rfl | hk
        · simp only [List.mem_cons] at hx
          rcases hx with rfl | hx
          · simp
          · exact List.mem_cons_of_mem _ (ih y (by simp) x hx)
        · exact List.mem_cons_of_mem _ (ih k (by simp [hk]) x hx)

theorem tabPieces_str (w : World) (ks : List (List Char)) (idx : Nat) :
    rchildrenStr w (tabPieces idx ks) = .ok (String.ofList (joinSep '\t' (idx == 0) ks)) := by
  induction ks generalizing idx with
  | nil => rfl
  | cons k ks ih =>
    simp only [tabPieces, rchildrenStr_append, ih, joinSep]
    have hk : rchildrenStr w (if k = [] then [] else [.text { text := String.ofList k }])
        = .ok (String.ofList k) := by
      split
      · rename_i e; subst e; rfl
      · simp [rchildrenStr, RChild.str]
    rw [hk]
    by_cases h : idx > 0
    · have : (idx == 0) = false := by simp; omega
      simp [h, this, rchildrenStr, RChild.str, String.ofList_append]
      rw [show ("\t" : String) = String.ofList ['\t'] from by decide, String.append_assoc]
    · have : idx = 0 := by omega
      subst this
      simp [rchildrenStr, String.ofList_append]

theorem linePieces_str (w : World) (ss : List (List Char)) (i : Nat) :
    rchildrenStr w (linePieces i ss) = .ok (String.ofList (joinSep '\n' (i == 0) ss)) := by
  induction ss generalizing i with
  | nil => rfl
  | cons s ss ih =>
    simp only [linePieces, rchildrenStr_append, ih, joinSep, tabPieces_str, beq_self_eq_true,
      joinSep_splitOn]
    by_cases h : i > 0
    · have : (i == 0) = false := by simp; omega
      simp [h, this, rchildrenStr, RChild.str, String.ofList_append]
      rw [show ("\n" : String) = String.ofList ['\n'] from by decide, String.append_assoc]
    · have : i = 0 := by omega
      subst this
      simp [rchildrenStr, String.ofList_append]

theorem linePieces_full (w : World) (s : String) :
    rchildrenStr w (linePieces 0 (splitOn '\n' s.toList)) = .ok s := by
  rw [linePieces_str]
  simp [joinSep_splitOn]

omit [HashEnv] in
theorem tabPieces_texts (ks : List (List Char)) (idx : Nat) (t : Text)
    (h : .text t ∈ tabPieces idx ks) : ∃ k ∈ ks, k ≠ [] ∧ t = { text := String.ofList k } := by
  induction ks generalizing idx with
  | nil => simp [tabPieces] at h
  | cons k ks ih =>
    simp only [tabPieces, List.mem_append] at h
    rcases h with (h | h) | h
    · split at h <;> simp at h
    · split at h
      · simp at h
      · rename_i hk
        simp only [List.mem_singleton, RChild.text.injEq] at h
        exact ⟨k, by simp, hk, h⟩
    · obtain ⟨k', hk', h1, h2⟩ := ih _ h
      exact ⟨k', by simp [hk'], h1, h2⟩

omit [HashEnv] in
theorem linePieces_texts (ss : List (List Char)) (i : Nat) (t : Text)
    (h : .text t ∈ linePieces i ss) :
    ∃ s ∈ ss, ∃ k ∈ splitOn '\t' s, k ≠ [] ∧ t = { text := String.ofList k } := by
  induction ss generalizing i with
  | nil => simp [linePieces] at h
  | cons s ss ih =>
    simp only [linePieces, List.mem_append] at h
    rcases h with (h | h) | h
    · split at h <;> simp at h
    · obtain ⟨k, hk, h1, h2⟩ := tabPieces_texts _ _ _ h
      exact ⟨s, by simp, k, hk, h1, h2⟩
    · obtain ⟨s', hs', k, hk, h1, h2⟩ := ih _ h
      exact ⟨s', by simp [hs'], k, hk, h1, h2⟩

/-! ## Texts depend only on what the ids in them resolve to -/

/-- The two worlds have the same documents as far as the given ids and all media names go. -/
def ViewEq (ids : List String) (w w' : World) : Prop := ∀ d : DocId,
  match w[d]?, w'[d]? with
  | none, none => True
  | some f, some f' => (∀ id ∈ ids, f.referTarget id = f'.referTarget id) ∧ ∀ n, f.getMedia n = f'.getMedia n
  | _, _ => False

omit [HashEnv] in
theorem ViewEq.mono {ids ids' : List String} {w w' : World} (h : ViewEq ids w w')
    (hs : ∀ i ∈ ids', i ∈ ids) : ViewEq ids' w w' := by
  intro d
  have := h d
  split at this <;> simp_all

omit [HashEnv] in
theorem ViewEq.get {ids : List String} {w w' : World} (h : ViewEq ids w w') (d : Option DocId) :
    match d.bind (w[·]?), d.bind (w'[·]?) with
    | none, none => True
    | some f, some f' => (∀ id ∈ ids, f.referTarget id = f'.referTarget id) ∧ ∀ n, f.getMedia n = f'.getMedia n
    | _, _ => False := by
  cases d with
  | none => simp
  | some d => simpa using h d

theorem picTarget_congr {w w' : World} (file : Option DocId) (pic : Picture)
    (h : ViewEq (picEmbed pic) w w') : picTarget w file pic = picTarget w' file pic := by
  unfold picTarget
  cases hb : pic.blipFill with
  | none => rfl
  | some bf =>
    have h := h.get file
    simp only
    cases h1 : file.bind (w[·]?) with
    | none =>
      cases h2 : file.bind (w'[·]?) with
      | none => rfl
      | some f' => simp [h1, h2] at h
    | some f =>
      cases h2 : file.bind (w'[·]?) with
      | none => simp [h1, h2] at h
      | some f' =>
        simp only [h1, h2, picEmbed, hb, List.mem_singleton, forall_eq] at h
        simp only [h.1]
        cases f'.referTarget bf.blip.embed with
        | none => rfl
        | some tgt =>
          have : mediaOfTarget f tgt = mediaOfTarget f' tgt := by
            unfold mediaOfTarget
            split <;> first | rfl | exact h.2 _
          simp only [this]

theorem gdata_congr {w w' : World} (tag : String) (file : Option DocId) (dp : Option IdName)
    (gd : GraphicData) (h : ViewEq (match gd.pic with | some pic => picEmbed pic | none => []) w w') :
    gd.str w tag file dp = gd.str w' tag file dp := by
  unfold GraphicData.str
  cases hp : gd.pic with
  | none => rfl
  | some pic =>
    simp only [hp] at h
    simp only [picTarget_congr file pic h]

theorem rchild_str_congr {w w' : World} (c : RChild) (h : ViewEq c.embeds w w') :
    c.str w = c.str w' := by
  cases c with
  | text t => rfl
  | tab t => rfl
  | br b => rfl
  | drawing d =>
    unfold RChild.str
    simp only [RChild.embeds] at h
    cases hi : d.inl with
    | some i =>
      simp only [hi] at h ⊢
      have h := h.mono (ids' := graphicEmbed i.graphic) (by intro x hx; simp [hx])
      unfold Inline.str
      cases hg : i.graphic with
      | none => rfl
      | some g =>
        obtain ⟨xa, data⟩ := g
        cases data with
        | none => rfl
        | some gd =>
          simp only [hg] at h ⊢
          refine gdata_congr _ _ _ _ (h.mono ?_)
          intro x hx
          obtain ⟨uri, pic, _, _, _⟩ := gd
          cases pic with
          | none => simp at hx
          | some pic => exact hx
    | none =>
      simp only [hi] at h ⊢
      cases ha : d.anchor with
      | none => rfl
      | some a =>
        simp only [ha] at h ⊢
        have h := h.mono (ids' := graphicEmbed a.graphic) (by intro x hx; simp [hx])
        unfold Anchor.str
        cases hg : a.graphic with
        | none => rfl
        | some g =>
          obtain ⟨xa, data⟩ := g
          cases data with
          | none => rfl
          | some gd =>
            simp only [hg] at h ⊢
            refine gdata_congr _ _ _ _ (h.mono ?_)
            intro x hx
            obtain ⟨uri, pic, _, _, _⟩ := gd
            cases pic with
            | none => simp at hx
            | some pic => exact hx

theorem rchildrenStr_congr {w w' : World} (cs : List RChild)
    (h : ViewEq (cs.flatMap (·.embeds)) w w') : rchildrenStr w cs = rchildrenStr w' cs := by
  induction cs with
  | nil => rfl
  | cons c cs ih =>
    simp only [rchildrenStr]
    rw [rchild_str_congr c (h.mono (by intro x hx; simp [hx])),
      ih (h.mono (by intro x hx; simp only [List.flatMap_cons, List.mem_append]; exact .inr hx))]

theorem pchildrenStr_congr {w w' : World} (file : Option DocId) (cs : List PChild)
    (h : ViewEq (cs.flatMap (·.refs)) w w') : pchildrenStr w file cs = pchildrenStr w' file cs := by
  induction cs with
  | nil => rfl
  | cons c cs ih =>
    simp only [pchildrenStr]
    rw [ih (h.mono (by intro x hx; simp only [List.flatMap_cons, List.mem_append]; exact .inr hx))]
    have h := h.mono (ids' := c.refs) (by intro x hx; simp [hx])
    have : c.str w file = c.str w' file := by
      cases c with
      | run r => exact rchildrenStr_congr r.children h
      | rpr _ => rfl
      | link hl =>
        unfold PChild.str
        have h := h.get file
        simp only [PChild.refs, List.mem_singleton, forall_eq] at h
        cases h1 : file.bind (w[·]?) with
        | none =>
          cases h2 : file.bind (w'[·]?) with
          | none => rfl
          | some f' => simp [h1, h2] at h
        | some f =>
          cases h2 : file.bind (w'[·]?) with
          | none => simp [h1, h2] at h
          | some f' =>
            simp only [h1, h2] at h
            simp only [h.1]
    rw [this]

theorem str_congr {w w' : World} (p : Para) (h : ViewEq p.refs w w') : p.str w = p.str w' :=
  pchildrenStr_congr p.file p.children h

end Docx

namespace Docx

theorem getPara_modPara {items : List BItem} {l : Loc} {p : Para} (p' : Para)
    (h : getPara items l = some p) : getPara (modPara items l (fun _ => p')) l = some p' := by
  cases l with
  | body i =>
    simp only [getPara] at h
    split at h
    · rename_i q hq
      simp only [getPara, modPara, List.getElem?_modify, hq]
      simp
    · simp at h
  | cell i r c j =>
    simp only [getPara] at h
    split at h
    · rename_i t ht
      simp only [getPara, modPara, List.getElem?_modify, ht]
      simp only [Option.bind_eq_bind, Option.bind_eq_some_iff] at h
      obtain ⟨row, hrow, cell, hcell, hp⟩ := h
      simp [hrow, hcell, hp]
    · simp at h

/-- Replacing a document by one that resolves the given ids and serves media the same way. -/
theorem viewEq_set {ids : List String} {w : World} {d : DocId} {f f' : Doc} (hf : w[d]? = some f)
    (h1 : ∀ id ∈ ids, f.referTarget id = f'.referTarget id) (h2 : ∀ n, f.getMedia n = f'.getMedia n) :
    ViewEq ids w (w.set d f') := by
  intro d'
  by_cases e : d' = d
  · subst e
    rw [hf, List.getElem?_set_self (lt_of_getElem? hf)]
    exact ⟨h1, h2⟩
  · rw [List.getElem?_set_ne (Ne.symm e)]
    cases w[d']? with
    | none => trivial
    | some g => exact ⟨fun _ _ => rfl, fun _ => rfl⟩

theorem ViewEq.trans {ids : List String} {w w' w'' : World} (a : ViewEq ids w w')
    (b : ViewEq ids w' w'') : ViewEq ids w w'' := by
  intro d
  have a := a d
  have b := b d
  cases h1 : w[d]? with
  | none =>
    cases h2 : w'[d]? with
    | none => simp only [h2] at b; cases h3 : w''[d]? with
      | none => trivial
      | some g => simp [h3] at b
    | some g => simp [h1, h2] at a
  | some f =>
    cases h2 : w'[d]? with
    | none => simp [h1, h2] at a
    | some g =>
      cases h3 : w''[d]? with
      | none => simp [h2, h3] at b
      | some k =>
        simp only [h1, h2] at a
        simp only [h2, h3] at b
        exact ⟨fun id hid => (a.1 id hid).trans (b.1 id hid), fun n => (a.2 n).trans (b.2 n)⟩

end Docx
