import Verif.Lemmas.Alike2
import Verif.Props.Forms

/-!
# C81: the order of attributes does not matter
-/

namespace Docx

set_option linter.unusedSectionVars false

/-! ## Trees -/

section
variable [GoEnv]

mutual
theorem twins_node : ∀ (n n' : Node), likeNode n n' → ∀ (st st' : List QName) (r r' : List Tok),
    twins st st' r r' → twins st st' (n.toks ++ r) (n'.toks ++ r')
  | .elem q as ks, .elem q' as' ks', h, st, st', r, r', hr => by
    simp only [likeNode] at h
    simp only [Node.toks, List.cons_append, List.append_assoc, List.nil_append]
    refine ⟨h.1, h.2.1, ?_⟩
    exact twins_nodes ks ks' h.2.2 _ _ _ _ ⟨h.1, by simp, hr⟩
  | .text s, .text s', h, st, st', r, r', hr => by
    simp only [likeNode] at h
    exact ⟨h, hr⟩
  | .other, .other, _, st, st', r, r', hr => by
    simp only [Node.toks, List.cons_append, List.nil_append, twins]
    exact hr
  | .elem _ _ _, .text _, h, _, _, _, _, _ => h.elim
  | .elem _ _ _, .other, h, _, _, _, _, _ => h.elim
  | .text _, .elem _ _ _, h, _, _, _, _, _ => h.elim
  | .text _, .other, h, _, _, _, _, _ => h.elim
  | .other, .elem _ _ _, h, _, _, _, _, _ => h.elim
  | .other, .text _, h, _, _, _, _, _ => h.elim
theorem twins_nodes : ∀ (ns ns' : List Node), likeNodes ns ns' → ∀ (st st' : List QName) (r r' : List Tok),
    twins st st' r r' → twins st st' (toksL ns ++ r) (toksL ns' ++ r')
  | [], [], _, _, _, _, _, hr => hr
  | n :: ns, n' :: ns', h, st, st', r, r', hr => by
    simp only [likeNodes] at h
    simp only [toksL, List.append_assoc]
    exact twins_node n n' h.1 _ _ _ _ (twins_nodes ns ns' h.2 _ _ _ _ hr)
  | [], _ :: _, h, _, _, _, _, _ => h.elim
  | _ :: _, [], h, _, _, _, _, _ => h.elim
end

theorem rootN_file {α : Type} {u : List Attr → Dec → Out α} (hu : ∀ as as', Alike (u as) (u as')) (s : α) :
    ∀ (n : Nat) (ns ns' : List Node), likeFile ns ns' →
    (rootN u s n ⟨toksL ns, [], false⟩).val = (rootN u s n ⟨toksL ns', [], false⟩).val ∧
    (rootN u s n ⟨toksL ns, [], false⟩).err = (rootN u s n ⟨toksL ns', [], false⟩).err
  | 0, _, _, _ => ⟨rfl, rfl⟩
  | _ + 1, [], [], _ => ⟨rfl, rfl⟩
  | n + 1, .elem q as ks :: r, .elem q' as' ks' :: r', h => by
    simp only [likeFile] at h
    have := hu as as' ⟨toksL ks ++ (.stop q :: toksL r), [.elem q], false⟩
      ⟨toksL ks' ++ (.stop q' :: toksL r'), [.elem q'], false⟩ ⟨rfl, rfl, ?_⟩
    · simp only [rootN, toksL, Node.toks, List.cons_append, List.append_assoc, List.nil_append, Dec.token]
      exact ⟨this.1, this.2.1⟩
    · have hr := twins_nodes r r' h.2.2 [] [] [] [] trivial
      rw [List.append_nil, List.append_nil] at hr
      exact twins_nodes ks ks' h.2.1 _ _ _ _ ⟨h.1, by simp [opens], hr⟩
  | n + 1, .text s' :: r, .text s'' :: r', h => by
    simp only [likeFile] at h
    exact rootN_file hu s n r r' h.2
  | n + 1, .other :: r, .other :: r', h => by
    simp only [likeFile] at h
    exact rootN_file hu s n r r' h
  | _ + 1, .elem _ _ _ :: _, .text _ :: _, h => h.elim
  | _ + 1, .elem _ _ _ :: _, .other :: _, h => h.elim
  | _ + 1, .text _ :: _, .elem _ _ _ :: _, h => h.elim
  | _ + 1, .text _ :: _, .other :: _, h => h.elim
  | _ + 1, .other :: _, .elem _ _ _ :: _, h => h.elim
  | _ + 1, .other :: _, .text _ :: _, h => h.elim
  | _ + 1, [], _ :: _, h => h.elim
  | _ + 1, _ :: _, [], h => by cases ‹Node› <;> exact h.elim

theorem likeNodes_length : ∀ {ns ns' : List Node}, likeNodes ns ns' → (toksL ns).length = (toksL ns').length := by
  intro ns ns' h
  have := twins_length (twins_nodes ns ns' h [] [] [] [] trivial)
  rwa [List.append_nil, List.append_nil] at this

theorem likeFile_length : ∀ {ns ns' : List Node}, likeFile ns ns' → (toksL ns).length = (toksL ns').length
  | [], [], _ => rfl
  | .elem _ _ ks :: r, .elem _ _ ks' :: r', h => by
    simp only [likeFile] at h
    simp only [toksL, Node.toks, List.length_append, List.length_cons, List.length_nil,
      likeNodes_length h.2.1, likeNodes_length h.2.2]
  | .text s' :: r, .text s'' :: r', h => by
    simp only [likeFile] at h
    simp only [toksL, Node.toks, List.length_append, List.length_cons, likeFile_length h.2]
  | .other :: r, .other :: r', h => by
    simp only [likeFile] at h
    simp only [toksL, Node.toks, List.length_append, List.length_cons, likeFile_length h]
  | .elem _ _ _ :: _, .text _ :: _, h => h.elim
  | .elem _ _ _ :: _, .other :: _, h => h.elim
  | .text _ :: _, .elem _ _ _ :: _, h => h.elim
  | .text _ :: _, .other :: _, h => h.elim
  | .other :: _, .elem _ _ _ :: _, h => h.elim
  | .other :: _, .text _ :: _, h => h.elim
  | [], _ :: _, h => h.elim
  | x :: _, [], h => by cases x <;> exact h.elim

/-- **C81.** The document is read without looking at the order of attributes: two files that differ only in
it, in prefixes, in attributes the library does not know and in the attributes of the root give the same
body, or the same error with the same part of the body.  Partial: elements whose attributes are in another
order must have well-formed numbers, and no two attributes with the same name in different name spaces
(see `C81_bad_number`, `C81_clash`). -/
theorem C81_order_partial (file : Option DocId) (s : List BItem) (ns ns' : List Node) (h : likeFile ns ns') :
    (decodeDocument file s (toksL ns)).val = (decodeDocument file s (toksL ns')).val ∧
    (decodeDocument file s (toksL ns)).err = (decodeDocument file s (toksL ns')).err := by
  unfold decodeDocument
  rw [likeFile_length h]
  exact rootN_file (fun _ _ => decodeElement_alike (al_unDocument (decs_alike _) file s)) s _ ns ns' h

theorem lastAttr_columns (n : String) (hn : ["Id", "Type", "Target", "TargetMode"].contains n = true)
    (as : List Attr) :
    lastAttr n as = ((((columns as).filter fun x => x.1 == n).map (·.2)).getLast?).getD "" := by
  have : (as.filter fun a => a.name.loc == n).map Attr.val =
      ((columns as).filter fun x => x.1 == n).map (·.2) := by
    unfold columns
    induction as with
    | nil => rfl
    | cons a as ih =>
      by_cases h : (a.name.loc == n) = true
      · have hc : ["Id", "Type", "Target", "TargetMode"].contains a.name.loc = true := by
          rw [beq_iff_eq] at h; rw [h]; exact hn
        simp only [List.filter_cons, h, hc, if_true, List.map_cons, ih]
      · simp only [List.filter_cons, h, if_false, ih, Bool.false_eq_true]
        split
        · simp only [List.map_cons, List.filter_cons, h, if_false, Bool.false_eq_true]
        · rfl
  unfold lastAttr
  rw [this]

theorem filter_names {xs ys : List (String × String)} (n : String) (h : xs.Perm ys) :
    (xs.map (·.1)).Nodup → xs.filter (fun x => x.1 == n) = ys.filter (fun x => x.1 == n) := by
  induction h with
  | nil => intro _; rfl
  | cons x _ ih =>
    intro hn
    simp only [List.map_cons, List.nodup_cons] at hn
    simp only [List.filter_cons, ih hn.2]
  | swap x y l =>
    intro hn
    simp only [List.map_cons, List.nodup_cons, List.mem_cons, not_or] at hn
    simp only [List.filter_cons]
    by_cases h1 : (y.1 == n) = true
    · have : ¬ (x.1 == n) = true := by
        intro e
        rw [beq_iff_eq] at h1 e
        exact hn.1.1 (h1.trans e.symm)
      simp only [h1, if_true, this, if_false, Bool.false_eq_true]
    · simp only [h1, if_false, Bool.false_eq_true]
  | trans h1 _ ih1 ih2 =>
    intro hn
    rw [ih1 hn]
    exact ih2 ((h1.map _).nodup hn)

theorem relsOf_same : ∀ (ns ns' : List Node), sameTable ns ns' → relsOf ns = relsOf ns'
  | [], [], _ => rfl
  | .elem q as _ :: r, .elem q' as' _ :: r', h => by
    simp only [sameTable] at h
    simp only [relsOf]
    rw [← h.1, relsOf_same r r' h.2.2]
    by_cases hq : q.loc = "Relationship"
    · rw [if_pos hq, if_pos hq]
      have key : ∀ n, ["Id", "Type", "Target", "TargetMode"].contains n = true → lastAttr n as = lastAttr n as' := by
        intro n hn
        rw [lastAttr_columns n hn, lastAttr_columns n hn]
        rcases h.2.1 hq with e | ⟨hp, hd⟩
        · rw [e]
        · rw [filter_names n hp hd]
      rw [key "Id" (by decide), key "Type" (by decide), key "Target" (by decide), key "TargetMode" (by decide)]
    · rw [if_neg hq, if_neg hq]
  | .text _ :: r, .text _ :: r', h => by simp only [sameTable] at h; exact relsOf_same r r' h
  | .text _ :: r, .other :: r', h => by simp only [sameTable] at h; exact relsOf_same r r' h
  | .other :: r, .text _ :: r', h => by simp only [sameTable] at h; exact relsOf_same r r' h
  | .other :: r, .other :: r', h => by simp only [sameTable] at h; exact relsOf_same r r' h
  | .elem _ _ _ :: _, .text _ :: _, h => h.elim
  | .elem _ _ _ :: _, .other :: _, h => h.elim
  | .elem _ _ _ :: _, [], h => h.elim
  | .text _ :: _, .elem _ _ _ :: _, h => h.elim
  | .text _ :: _, [], h => h.elim
  | .other :: _, .elem _ _ _ :: _, h => h.elim
  | .other :: _, [], h => h.elim
  | [], .elem _ _ _ :: _, h => h.elim
  | [], .text _ :: _, h => h.elim
  | [], .other :: _, h => h.elim

theorem relsXmlns_names : ∀ (as : List Attr) (x : String), relsXmlns x as = (rootNames as).foldl (fun _ v => v) x
  | [], _ => rfl
  | a :: as, x => by
    have ih := fun y => relsXmlns_names as y
    unfold relsXmlns at ih ⊢
    simp only [List.foldl_cons, ih]
    by_cases h : a.name.loc = "xmlns"
    · simp [rootNames, h]
    · simp [rootNames, h]

theorem unpackAll_reordered (me : DocId) {a a' : Archive} (h : Reordered a a') : ∀ f : Doc,
    f.unpackAll me a' = f.unpackAll me a := by
  induction h with
  | nil => intro f; rfl
  | same _ ih =>
    intro f
    rw [Doc.unpackAll, Doc.unpackAll]
    split
    · exact ih _
    · rfl
  | @document ns ns' w w' a a' hs h1 h2 _ ih =>
    intro f
    have he : f.unpackEntry me ⟨"word/document.xml", .ok ⟨utf8 w', none⟩⟩ =
        f.unpackEntry me ⟨"word/document.xml", .ok ⟨utf8 w, none⟩⟩ := by
      unfold Doc.unpackEntry
      simp only
      have n1 : ¬ ("word/document.xml" = relsName) := by decide
      have n2 : "word/document.xml" = documentName := rfl
      rw [if_neg n1, if_pos n2, if_neg n1, if_pos n2]
      simp only [Doc.parseDocument, Stream.toks, lex_file h1, lex_file h2]
      obtain ⟨e1, e2⟩ := C81_order_partial (some me) f.items ns ns' hs
      rw [e1, e2]
    rw [Doc.unpackAll, Doc.unpackAll, he]
    split
    · exact ih _
    · rfl
  | @table pre post pre' post' q q' as as' ks ks' w w' a a' hb hb' hx ht h1 h2 _ ih =>
    intro f
    have he : f.unpackEntry me ⟨"word/_rels/document.xml.rels", .ok ⟨utf8 w', none⟩⟩ =
        f.unpackEntry me ⟨"word/_rels/document.xml.rels", .ok ⟨utf8 w, none⟩⟩ := by
      unfold Doc.unpackEntry
      simp only
      have n1 : "word/_rels/document.xml.rels" = relsName := rfl
      rw [if_pos n1, if_pos n1]
      have t1 : (⟨utf8 w, none⟩ : Stream).toks = toksL pre ++ (Node.elem q as ks).toks ++ toksL post := by
        simp only [Stream.toks, lex_file h1, toksL_append, toksL, List.append_assoc]
      have t2 : (⟨utf8 w', none⟩ : Stream).toks = toksL pre' ++ (Node.elem q' as' ks').toks ++ toksL post' := by
        simp only [Stream.toks, lex_file h2, toksL_append, toksL, List.append_assoc]
      rw [parseRels_tree f _ _ pre' q' as' ks' _ rfl t2 hb', parseRels_tree f _ _ pre q as ks _ rfl t1 hb]
      rw [relsOf_same ks ks' ht, relsXmlns_names, relsXmlns_names, hx]
    rw [Doc.unpackAll, Doc.unpackAll, he]
    split
    · exact ih _
    · rfl

/-- **C81, packages.** Opening two packages whose documents and tables of relationships differ like that,
and in the way they are written (C74), gives the same document, or the same error. -/
theorem C81_opened_partial (me : DocId) (a a' : Archive) (h : Reordered a a') :
    (unpack me a').2 = (unpack me a).2 ∧
    ({ (unpack me a').1 with tmplfs := none } : Doc) = { (unpack me a).1 with tmplfs := none } := by
  have h1 := unpackAll_tmplfs me (some (zipFS a')) a { relXmlns := "" }
  have h2 := unpackAll_tmplfs me (some (zipFS a)) a { relXmlns := "" }
  have h3 := unpackAll_reordered me h { relXmlns := "", tmplfs := some (zipFS a') }
  unfold unpack
  rw [h3, h1, h2]
  rcases ({ relXmlns := "" } : Doc).unpackAll me a with ⟨f, _ | x⟩ <;> exact ⟨rfl, rfl⟩


end

/-! ## Limits -/

/-- A paragraph with the distance to its neighbours given by these attributes -/
def spaced (as : List Attr) : List Node :=
  [.elem ⟨"w", "document"⟩ [] [.elem ⟨"w", "body"⟩ [] [.elem ⟨"w", "p"⟩ []
    [.elem ⟨"w", "pPr"⟩ [] [.elem ⟨"w", "spacing"⟩ as []]]]]]

/-- The height of lines of the paragraphs -/
def lineHeights (its : List BItem) : List (Option Int64) :=
  its.map fun
    | .para p => (p.props.bind (·.spacing)).map (·.line)
    | _ => none

/-- A cell with the colours of its background given by these attributes -/
def shaded (as : List Attr) : List Node :=
  [.elem ⟨"w", "document"⟩ [] [.elem ⟨"w", "body"⟩ [] [.elem ⟨"w", "p"⟩ []
    [.elem ⟨"w", "pPr"⟩ [] [.elem ⟨"w", "shd"⟩ as []]]]]]

/-- The pattern of the background -/
def patterns (its : List BItem) : List (Option String) :=
  its.map fun
    | .para p => (p.props.bind (·.shade)).map (·.val)
    | _ => none

local instance orderEnv : GoEnv := ⟨fun _ => none, fun _ => false, fun _ => false⟩

/-- **C81, a limit.** When one number is bad, the attributes after it are lost, those before it are not:
here `before` is no number.  Neither file is reported as damaged. -/
theorem C81_bad_number :
    lineHeights (decodeDocument none [] (toksL (spaced [⟨⟨"w", "line"⟩, "240"⟩, ⟨⟨"w", "before"⟩, "x"⟩]))).val =
      [some 240] ∧
    lineHeights (decodeDocument none [] (toksL (spaced [⟨⟨"w", "before"⟩, "x"⟩, ⟨⟨"w", "line"⟩, "240"⟩]))).val =
      [some 0] ∧
    (decodeDocument none [] (toksL (spaced [⟨⟨"w", "line"⟩, "240"⟩, ⟨⟨"w", "before"⟩, "x"⟩]))).err = none ∧
    (decodeDocument none [] (toksL (spaced [⟨⟨"w", "before"⟩, "x"⟩, ⟨⟨"w", "line"⟩, "240"⟩]))).err = none := by
  decide +kernel

/-- **C81, a limit.** Of two attributes with the same name in different name spaces the last one counts. -/
theorem C81_clash :
    patterns (decodeDocument none [] (toksL (shaded [⟨⟨"w", "val"⟩, "clear"⟩, ⟨⟨"x", "val"⟩, "1"⟩]))).val =
      [some "1"] ∧
    patterns (decodeDocument none [] (toksL (shaded [⟨⟨"x", "val"⟩, "1"⟩, ⟨⟨"w", "val"⟩, "clear"⟩]))).val =
      [some "clear"] := by
  decide +kernel

/-! ## Cases that meet the hypotheses -/

/-- Other prefixes, unknown attributes and another order of attributes -/
example : likeFile (spaced [⟨⟨"w", "line"⟩, "240"⟩, ⟨⟨"w", "before"⟩, "12"⟩, ⟨⟨"w", "lineRule"⟩, "auto"⟩])
    (spaced [⟨⟨"", "lineRule"⟩, "auto"⟩, ⟨⟨"x", "unknown"⟩, "a"⟩, ⟨⟨"w", "before"⟩, "12"⟩, ⟨⟨"v", "line"⟩, "240"⟩]) := by
  refine ⟨rfl, ⟨⟨rfl, .inl rfl, ⟨rfl, .inl rfl, ⟨rfl, .inl rfl, ⟨⟨rfl, .inr ⟨?_, ?_, ?_⟩, trivial⟩, trivial⟩⟩, trivial⟩, trivial⟩, trivial⟩, trivial⟩
  · decide +kernel
  · decide +kernel
  · intro x hx hn
    have : x ∈ [("line", "240"), ("before", "12"), ("lineRule", "auto")] := hx
    simp only [List.mem_cons, List.not_mem_nil, or_false] at this
    rcases this with rfl | rfl | rfl
    · simp only [goodNumber]; decide +kernel
    · simp only [goodNumber]; decide +kernel
    · exact absurd hn (by decide +kernel)

/-- Two tables with the attributes in another order -/
example : sameTable
    [.elem ⟨"", "Relationship"⟩ [⟨⟨"", "Id"⟩, "rId1"⟩, ⟨⟨"", "Type"⟩, "t"⟩, ⟨⟨"", "Target"⟩, "u"⟩] []]
    [.elem ⟨"r", "Relationship"⟩ [⟨⟨"", "Target"⟩, "u"⟩, ⟨⟨"", "Id"⟩, "rId1"⟩, ⟨⟨"", "Type"⟩, "t"⟩] []] :=
  ⟨rfl, fun _ => .inr ⟨by decide +kernel, by decide +kernel⟩, trivial⟩

end Docx
