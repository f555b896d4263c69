import Verif.Props.Order
import Verif.Props.Ns

/-!
# C80: prefixes do not matter
-/

namespace Docx

set_option linter.unusedSectionVars false

section
variable [GoEnv]

mutual
theorem like_node : ∀ (n n' : Node), sameNode n n' → likeNode n n'
  | .elem q as ks, .elem q' as' ks', h => by
    simp only [sameNode] at h
    exact ⟨h.1, .inl h.2.1, like_nodes ks ks' h.2.2⟩
  | .text _, .text _, h => h
  | .other, .other, _ => trivial
  | .elem _ _ _, .text _, h => h.elim
  | .elem _ _ _, .other, h => h.elim
  | .text _, .elem _ _ _, h => h.elim
  | .text _, .other, h => h.elim
  | .other, .elem _ _ _, h => h.elim
  | .other, .text _, h => h.elim
theorem like_nodes : ∀ (ns ns' : List Node), sameNodes ns ns' → likeNodes ns ns'
  | [], [], _ => trivial
  | n :: ns, n' :: ns', h => by
    simp only [sameNodes] at h
    exact ⟨like_node n n' h.1, like_nodes ns ns' h.2⟩
  | [], _ :: _, h => h.elim
  | _ :: _, [], h => h.elim
end

theorem like_file : ∀ (ns ns' : List Node), sameFile ns ns' → likeFile ns ns'
  | [], [], _ => trivial
  | .elem _ _ ks :: r, .elem _ _ ks' :: r', h => by
    simp only [sameFile] at h
    exact ⟨h.1, like_nodes _ _ h.2.1, like_nodes _ _ h.2.2⟩
  | .text _ :: r, .text _ :: r', h => by
    simp only [sameFile] at h
    exact ⟨h.1, like_file r r' h.2⟩
  | .other :: r, .other :: r', h => by
    simp only [sameFile] at h
    simp only [likeFile]
    exact like_file r r' h
  | .elem _ _ _ :: _, .text _ :: _, h => h.elim
  | .elem _ _ _ :: _, .other :: _, h => h.elim
  | .text _ :: _, .elem _ _ _ :: _, h => h.elim
  | .text _ :: _, .other :: _, h => h.elim
  | .other :: _, .elem _ _ _ :: _, h => h.elim
  | .other :: _, .text _ :: _, h => h.elim
  | [], _ :: _, h => h.elim
  | x :: _, [], h => by cases x <;> exact h.elim

theorem reordered_of {a a' : Archive} (h : Prefixed a a') : Reordered a a' := by
  induction h with
  | nil => exact .nil
  | same _ ih => exact .same ih
  | document hs h1 h2 _ ih => exact .document (like_file _ _ hs) h1 h2 ih

/-- **C80.** The document is read without looking at prefixes: two files that differ only in prefixes, in
attributes the library does not know and in the attributes of the root give the same body, or the same
error with the same part of the body. -/
theorem C80_prefixes (file : Option DocId) (s : List BItem) (ns ns' : List Node) (h : sameFile ns ns') :
    (decodeDocument file s (toksL ns)).val = (decodeDocument file s (toksL ns')).val ∧
    (decodeDocument file s (toksL ns)).err = (decodeDocument file s (toksL ns')).err := by
  exact C81_order_partial file s ns ns' (like_file ns ns' h)

/-- **C80, packages.** Opening two packages whose documents differ like that, and in the way they are
written (C74), gives the same document, or the same error. -/
theorem C80_opened (me : DocId) (a a' : Archive) (h : Prefixed a a') :
    (unpack me a').2 = (unpack me a).2 ∧
    ({ (unpack me a').1 with tmplfs := none } : Doc) = { (unpack me a).1 with tmplfs := none } :=
  C81_opened_partial me a a' (reordered_of h)

end

/-! ## Renaming -/

theorem readable_rename (f : String → String) : ∀ (as : List Attr), (∀ a ∈ as, a.clear f) →
    readable (as.map (Attr.rename f)) = readable as
  | [], _ => rfl
  | a :: as, h => by
    have ih := readable_rename f as fun x hx => h x (.tail _ hx)
    have ha := h a (.head _)
    unfold readable at ih ⊢
    simp only [List.map_cons, List.filter_cons]
    by_cases hd : declaration a = true
    · have e : a.rename f = { a with name := ⟨"xmlns", f a.name.loc⟩ } := by simp only [Attr.rename, hd, if_true]
      rw [e]
      simp only
      rcases ha hd with h1 | ⟨h1, h2⟩
      · rw [h1]
        split
        · simp only [List.map_cons, h1, ih]
        · exact ih
      · have e1 : attributeNames.contains a.name.loc = false := by
          rw [← Bool.not_eq_true, List.contains_iff_mem]; exact h1
        have e2 : attributeNames.contains (f a.name.loc) = false := by
          rw [← Bool.not_eq_true, List.contains_iff_mem]; exact h2
        simp only [e1, e2, Bool.false_eq_true, if_false]
        exact ih
    · have e : (a.rename f).name.loc = a.name.loc ∧ (a.rename f).val = a.val := by
        simp only [Attr.rename, hd, Bool.false_eq_true, if_false]
        split <;> exact ⟨rfl, rfl⟩
      rw [e.1]
      split
      · simp only [List.map_cons, e.1, e.2, ih]
      · exact ih

mutual
theorem same_rename (f : String → String) : ∀ n : Node, n.clear f → sameNode n (n.rename f)
  | .elem q as ks, h => by
    simp only [Node.clear] at h
    exact ⟨rfl, (readable_rename f as h.1).symm, same_renameL f ks h.2⟩
  | .text _, _ => rfl
  | .other, _ => trivial
theorem same_renameL (f : String → String) : ∀ ns : List Node, clearL f ns → sameNodes ns (renameL f ns)
  | [], _ => trivial
  | n :: ns, h => by
    simp only [clearL] at h
    exact ⟨same_rename f n h.1, same_renameL f ns h.2⟩
end

theorem renameL_append (f : String → String) : ∀ ns ms : List Node,
    renameL f (ns ++ ms) = renameL f ns ++ renameL f ms
  | [], _ => rfl
  | n :: ns, ms => by simp only [List.cons_append, renameL, renameL_append f ns ms]

theorem sameFile_rename (f : String → String) (q : QName) (as : List Attr) (ks : List Node) (hk : clearL f ks) :
    ∀ (before after : List Node), before.all (fun n => !n.isElem) = true → after.all (fun n => !n.isElem) = true →
    sameFile (before ++ .elem q as ks :: after) (renameL f (before ++ .elem q as ks :: after))
  | [], after, _, ha => by
    refine ⟨rfl, same_renameL f ks hk, same_renameL f after ?_⟩
    induction after with
    | nil => trivial
    | cons n ns ih =>
      rw [List.all_cons, Bool.and_eq_true] at ha
      refine ⟨?_, ih ha.2⟩
      cases n with
      | elem _ _ _ => cases ha.1
      | _ => trivial
  | .elem _ _ _ :: _, _, hb, _ => by cases hb
  | .text s :: before, after, hb, ha => ⟨rfl, sameFile_rename f q as ks hk before after hb ha⟩
  | .other :: before, after, hb, ha => by
    have := sameFile_rename f q as ks hk before after hb ha
    simp only [List.cons_append, renameL, Node.rename, sameFile]
    exact this

section
variable [GoEnv]

/-- **C80, renaming (partial).** Renaming the prefixes of a document, together with their declarations,
does not change what is read.  Missing: prefixes that are declared inside the document under the name of an
attribute (`C80_declaration_fails`, `C80_undeclared`), and the values of `Requires`, which name prefixes
(`C80_requires`); for these it is false. -/
theorem C80_renamed_partial (f : String → String) (file : Option DocId) (s : List BItem)
    (before after : List Node) (q : QName) (as : List Attr) (ks : List Node) (hk : clearL f ks)
    (hb : before.all (fun n => !n.isElem) = true) (ha : after.all (fun n => !n.isElem) = true) :
    (decodeDocument file s (toksL (renameL f (before ++ .elem q as ks :: after)))).val =
      (decodeDocument file s (toksL (before ++ .elem q as ks :: after))).val ∧
    (decodeDocument file s (toksL (renameL f (before ++ .elem q as ks :: after)))).err =
      (decodeDocument file s (toksL (before ++ .elem q as ks :: after))).err := by
  obtain ⟨h1, h2⟩ := C80_prefixes file s _ _ (sameFile_rename f q as ks hk before after hb ha)
  exact ⟨h1.symm, h2.symm⟩

/-! ## Limits -/

theorem loopN_fails {σ : Type} {step : σ → String → List Attr → Dec → Out σ} {chars : σ → String → σ} {s : σ}
    {q : QName} {as : List Attr} {r : List Tok} {stk : List StkEntry} {x : QName} {e : Err}
    (h : (step s q.loc as ⟨r, .elem q :: .elem x :: stk, false⟩).err = some e) (n : Nat) :
    (loopN step chars (n + 1) s ⟨.start q as :: r, .elem x :: stk, false⟩).err = some e := by
  simp only [loopN, Dec.token]
  rcases hs : step s q.loc as ⟨r, .elem q :: .elem x :: stk, false⟩ with ⟨v, _ | e', d⟩
  · rw [hs] at h; cases h
  · rw [hs] at h
    exact h

theorem loop_fails {σ : Type} {step : σ → String → List Attr → Dec → Out σ} {s : σ}
    {q : QName} {as : List Attr} {r : List Tok} {stk : List StkEntry} {x : QName} {e : Err}
    (h : (step s q.loc as ⟨r, .elem q :: .elem x :: stk, false⟩).err = some e) :
    (loop step s ⟨.start q as :: r, .elem x :: stk, false⟩).err = some e := loopN_fails h _

theorem decodeElement_fails {α : Type} {u : Dec → Out α} {d : Dec} {e : Err} (h : (u d.pushEOF).err = some e) :
    (decodeElement u d).err = some e := by
  unfold decodeElement
  simp only [h]

theorem sub_fails {α σ : Type} {u : Dec → Out α} {k : α → σ} {d : Dec} (h : (u d.pushEOF).err = some .strconv) :
    (sub u k d).err = some .strconv := by
  unfold sub
  simp only [decodeElement_fails h, tolerate]

/-- **C80, a limit.** A declaration is taken for an attribute: if the element with the size of the page
declares the prefix `w` (which is allowed anywhere), the document cannot be opened, whatever else is in it.
In all other elements with an attribute `w:w` the declaration is taken for a bad number, too (C44). -/
theorem C80_declaration_fails (file : Option DocId) (uri : String) (hu : atoi? uri = none) (as : List Attr)
    (k1 k2 k3 k4 : List Node) :
    (decodeDocument file [] (toksL [.elem ⟨"w", "document"⟩ [] (.elem ⟨"w", "body"⟩ [] (.elem ⟨"w", "sectPr"⟩ []
      (.elem ⟨"w", "pgSz"⟩ (⟨⟨"xmlns", "w"⟩, uri⟩ :: as) k1 :: k2) :: k3) :: k4)])).err = some .strconv := by
  simp only [toksL, Node.toks, List.cons_append, List.append_assoc, List.nil_append]
  unfold decodeDocument
  generalize decs _ = D
  simp only [rootN, Dec.token]
  refine decodeElement_fails ?_
  simp only [Dec.pushEOF, pushMark, unDocument]
  refine loop_fails ?_
  simp only [documentStep]
  refine sub_fails ?_
  simp only [Dec.pushEOF, pushMark, unBody]
  refine loop_fails ?_
  simp only [bodyStep]
  refine sub_fails ?_
  simp only [Dec.pushEOF, pushMark, unSect]
  refine loop_fails ?_
  simp only [sectStep]
  refine sub_fails ?_
  simp only [unPgSz, leaf, attrs, pgSzAttr, atoiAttr, hu]

/-- **C80, a limit.** The name space of an element does not count: elements of any other vocabulary, with
any prefix, are taken for paragraphs and texts if they have the same names. -/
theorem C80_foreign (file : Option DocId) (p t : String) :
    (decodeDocument file [] (toksL [.elem ⟨"w", "document"⟩ [] [.elem ⟨"w", "body"⟩ []
      [.elem ⟨p, "p"⟩ [] [.elem ⟨p, "r"⟩ [] [.elem ⟨p, "t"⟩ [] [.text t]]]]]])).val.map itemContent =
      [.para { parts := [.run { pieces := [.text t] }] }] := by
  rw [(C80_prefixes file [] _ [docWith [pWith [rWith [tWith [.text t]]]]] (by
        simp [sameFile, sameNodes, sameNode, docWith, pWith, rWith, tWith])).1]
  have h : toksL [docWith [pWith [rWith [tWith [.text t]]]]] = (docWith [pWith [rWith [tWith [.text t]]]]).toks := by
    rw [toksL, toksL, List.append_nil]
  rw [h, (C46_last file [.text t]).2]
  rfl

/-- A run with a shape, for programs that know the extension with the prefix `p` -/
def choiceFile (p : String) : List Node :=
  [.elem ⟨"w", "document"⟩ [⟨⟨"xmlns", p⟩, "http://schemas.microsoft.com/office/word/2010/wordprocessingShape"⟩]
    [.elem ⟨"w", "body"⟩ [] [.elem ⟨"w", "p"⟩ [] [.elem ⟨"w", "r"⟩ [] [.elem ⟨"mc", "AlternateContent"⟩ []
      [.elem ⟨"mc", "Choice"⟩ [⟨⟨"", "Requires"⟩, p⟩] [.elem ⟨"w", "drawing"⟩ [] [.elem ⟨"wp", "inline"⟩ []
        [.elem ⟨"a", "graphic"⟩ [⟨⟨"xmlns", "a"⟩, xmlnsDrawingMain⟩] [.elem ⟨"a", "graphicData"⟩ []
          [.elem ⟨p, "wsp"⟩ [] []]]]]]]]]]]]

/-- How many children the runs of these items have -/
def runSizes (items : List BItem) : List Nat :=
  items.flatMap fun
    | .para p => p.children.map fun
      | .run r => r.children.length
      | _ => 0
    | _ => []

end

local instance namesEnv : GoEnv := ⟨fun _ => none, fun _ => false, fun _ => false⟩

/-- **C80, a limit.** The library looks for the prefixes `wps`, `wpc` and `wpg` themselves: with another
prefix for the same extension the shape is lost. -/
theorem C80_requires : runSizes (decodeDocument none [] (toksL (choiceFile "wps"))).val = [1] ∧
    runSizes (decodeDocument none [] (toksL (choiceFile "ns1"))).val = [0] := by
  decide +kernel

/-- A graphic whose name space has the prefix `p` -/
def graphicFile (p : String) : Node :=
  .elem ⟨"w", "document"⟩ [⟨⟨"xmlns", "w"⟩, "w-uri"⟩, ⟨⟨"xmlns", "wp"⟩, "wp-uri"⟩]
    [.elem ⟨"w", "body"⟩ [] [.elem ⟨"w", "p"⟩ [] [.elem ⟨"w", "r"⟩ [] [.elem ⟨"w", "drawing"⟩ []
      [.elem ⟨"wp", "inline"⟩ [] [.elem ⟨p, "graphic"⟩ [⟨⟨"xmlns", p⟩, xmlnsDrawingMain⟩]
          [.elem ⟨p, "graphicData"⟩ [⟨⟨"", "uri"⟩, "g"⟩] []]]]]]]]

/-- **C80, a limit.** The prefix of drawings must be `a`: a file in which it is declared under another name
is saved with an `a` that nothing declares. -/
theorem C80_undeclared : nsOk [] (graphicFile "a") = true ∧ nsOk [] (graphicFile "d") = true ∧
    nsOk [] (mDocument (decodeDocument none [] (partToks (graphicFile "a"))).val) = true ∧
    (decodeDocument none [] (partToks (graphicFile "d"))).err = none ∧
    nsOk [] (mDocument (decodeDocument none [] (partToks (graphicFile "d"))).val) = false := by
  decide +kernel

/-! ## Cases that meet the hypotheses -/

/-- The prefixes `w` and `r` of a file are renamed. -/
def otherPrefix : String → String
  | "w" => "ns0"
  | "r" => "rel"
  | p => p

/-- A paragraph with a size of the text and a link -/
def linkBody : List Node :=
  [.elem ⟨"w", "body"⟩ [] [.elem ⟨"w", "p"⟩ [⟨⟨"xmlns", "w14"⟩, "u"⟩]
    [.elem ⟨"w", "r"⟩ [] [.elem ⟨"w", "rPr"⟩ [] [.elem ⟨"w", "sz"⟩ [⟨⟨"w", "val"⟩, "24"⟩] []],
       .elem ⟨"w", "t"⟩ [] [.text "a & b"]],
     .elem ⟨"w", "hyperlink"⟩ [⟨⟨"r", "id"⟩, "rId4"⟩] []]]]

/-- It is clear for this renaming, though the root declares `w` (the root may declare anything). -/
example : clearL otherPrefix linkBody := by
  simp [clearL, Node.clear, linkBody, Attr.clear, declaration, otherPrefix]

/-- The renaming changes the file. -/
example : renameL otherPrefix linkBody ≠ linkBody := by
  simp [renameL, Node.rename, linkBody, otherPrefix]

/-- A value of `xmlns:w` is not a number. -/
example : atoi? "http://schemas.openxmlformats.org/wordprocessingml/2006/main" = none := by decide +kernel

/-- Two packages that differ in the prefix of the document -/
example : Prefixed [⟨"word/document.xml", .ok ⟨utf8 "<w:document/>".toList, none⟩⟩]
    [⟨"word/document.xml", .ok ⟨utf8 "<document/>".toList, none⟩⟩] := by
  refine .document (ns := [.elem ⟨"w", "document"⟩ [] []]) (ns' := [.elem ⟨"", "document"⟩ [] []])
    (by simp [sameFile, sameNodes]) ?_ ?_ .nil
  · exact .cons (.empty (wa := []) (b := []) (by decide) .nil (by intro c hc; cases hc)) .nil
  · exact .cons (.empty (wa := []) (b := []) (by decide) .nil (by intro c hc; cases hc)) .nil

end Docx
