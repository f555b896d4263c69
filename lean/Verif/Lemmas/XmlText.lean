import Verif.SpecText
import Verif.Lemmas.Xml

/-!
# Reading back what was printed
-/

namespace Docx

set_option linter.unusedSectionVars false

variable [GoEnv]

/-! ## UTF-8 -/

theorem runesGo_pass : ∀ (n : Nat) (xs bs : Bytes), xs.length = n → runesGo n (xs ++ bs) = runesGo 0 bs := by
  intro n
  induction n with
  | zero =>
    intro xs bs h
    have : xs = [] := List.length_eq_zero_iff.mp h
    subst this
    rfl
  | succ n ih =>
    intro xs bs h
    cases xs with
    | nil => cases h
    | cons x xs =>
      rw [List.cons_append, runesGo]
      exact ih xs bs (by simpa using h)

theorem runes_utf8_append (cs : List Char) (bs : Bytes) :
    runes (utf8 cs ++ bs) = cs.map some ++ runes bs := by
  unfold runes
  induction cs with
  | nil => rfl
  | cons c cs ih =>
    have hne := String.utf8EncodeChar_ne_nil (c := c)
    have hl := String.length_utf8EncodeChar c
    have hd : ∀ l : Bytes, (ByteArray.mk (String.utf8EncodeChar c ++ l).toArray).utf8DecodeChar? 0 = some c := by
      intro l
      have := ByteArray.utf8DecodeChar?_utf8EncodeChar_append (b := ByteArray.mk l.toArray) (c := c)
      rw [← this]
      congr 1
      apply ByteArray.ext
      simp [ByteArray.data_append, List.data_toByteArray]
    have he : utf8 (c :: cs) = String.utf8EncodeChar c ++ utf8 cs := rfl
    rw [he, List.append_assoc]
    have := hd (utf8 cs ++ bs)
    revert this hl hne
    generalize String.utf8EncodeChar c = x
    intro hne hl hd
    cases x with
    | nil => exact absurd rfl hne
    | cons b x =>
      rw [List.cons_append] at hd ⊢
      rw [runesGo, hd]
      simp only [List.map_cons, List.cons_append, List.cons.injEq, true_and]
      rw [runesGo_pass _ x _ (by simp at hl; omega)]
      exact ih

theorem runes_utf8 (cs : List Char) : runes (utf8 cs) = cs.map some := by
  have := runes_utf8_append cs []
  rw [List.append_nil] at this
  rw [this]
  show _ ++ [] = _
  simp

/-! ## Texts -/

theorem allChars_map (cs : List Char) : allChars (cs.map some) = some cs := by
  induction cs with
  | nil => rfl
  | cons c cs ih => rw [List.map_cons, allChars, ih]

theorem textGo_ent (q : Option Char) (cd : Bool) (b0 b1 : Rune) (acc tail : List Rune) (c : Char) :
    ∀ (e e0 : List Char), (∀ x ∈ e, x ≠ ';') → entity (e0.reverse ++ e) = some c →
    textGo q cd (some (e0.map some)) b0 b1 acc (e.map some ++ some ';' :: tail) =
      textGo q cd none none none (some c :: acc) tail := by
  intro e
  induction e with
  | nil =>
    intro e0 _ he
    rw [List.append_nil] at he
    rw [List.map_nil, List.nil_append, textGo, if_pos rfl, ← List.map_reverse, allChars_map]
    simp only [he]
  | cons x e ih =>
    intro e0 hx he
    have hne : (some x : Rune) ≠ some ';' := by
      intro h
      exact hx x (List.mem_cons_self ..) (Option.some.inj h)
    rw [List.map_cons, List.cons_append, textGo, if_neg hne]
    exact ih (x :: e0) (fun y hy => hx y (List.mem_cons_of_mem _ hy)) (by simpa using he)

theorem textGo_amp (q : Option Char) (hq : q = none ∨ q = some '"') (b0 b1 : Rune)
    (acc tail : List Rune) (c : Char) (e : List Char) (hx : ∀ x ∈ e, x ≠ ';') (he : entity e = some c) :
    textGo q false none b0 b1 acc (('&' :: e ++ [';']).map some ++ tail) =
      textGo q false none none none (some c :: acc) tail := by
  have h1 : ('&' :: e ++ [';']).map some ++ tail = some '&' :: (e.map some ++ some ';' :: tail) := by simp
  have h2 := textGo_ent q false b0 b1 acc tail c e [] hx he
  rw [h1]
  rw [← h2]
  rcases hq with rfl | rfl <;> simp [textGo]

theorem textGo_plain (q : Option Char) (hq : q = none ∨ q = some '"') (b0 b1 : Rune) (hb : b1 ≠ some '\r')
    (acc tail : List Rune) (c : Char) (h1 : c ≠ '<') (h2 : c ≠ '>') (h3 : c ≠ '&') (h4 : c ≠ '"')
    (h5 : c ≠ '\r') :
    textGo q false none b0 b1 acc (some c :: tail) = textGo q false none b1 (some c) (some c :: acc) tail := by
  rcases hq with rfl | rfl <;> simp [textGo, h1, h2, h3, h4, h5, hb]

/-- Reading an escaped text up to its end -/
theorem textGo_esc (q : Option Char) (hq' : q = none ∨ q = some '"') (tail rest : List Rune)
    (hend : ∀ b0 b1 acc, textGo q false none b0 b1 acc tail = some (acc.reverse, rest)) :
    ∀ (s : List Char) (b0 b1 : Rune) (acc : List Rune), b1 ≠ some '\r' →
    textGo q false none b0 b1 acc ((s.flatMap escChar).map some ++ tail) =
      some (acc.reverse ++ (s.map cleanChar).map some, rest) := by
  intro s
  induction s with
  | nil =>
    intro b0 b1 acc hb
    rw [List.flatMap_nil, List.map_nil, List.nil_append, hend]
    simp
  | cons c s ih =>
    intro b0 b1 acc hb
    have hcl : ((c :: s).map cleanChar).map some = some (cleanChar c) :: (s.map cleanChar).map some := rfl
    rw [List.flatMap_cons, List.map_append, List.append_assoc, hcl]
    have fin : ∀ (b0 b1 : Rune), b1 ≠ some '\r' → ∀ d, d = cleanChar c →
        textGo q false none b0 b1 (some d :: acc) ((s.flatMap escChar).map some ++ tail) =
        some (acc.reverse ++ some (cleanChar c) :: (s.map cleanChar).map some, rest) := by
      intro b0 b1 hb d hd
      rw [ih _ _ _ hb, hd]
      simp
    have ent : ∀ e d, escChar c = '&' :: e ++ [';'] → (∀ x ∈ e, x ≠ ';') → entity e = some d →
        d = cleanChar c →
        textGo q false none b0 b1 acc ((escChar c).map some ++
          ((s.flatMap escChar).map some ++ tail)) =
        some (acc.reverse ++ some (cleanChar c) :: (s.map cleanChar).map some, rest) := by
      intro e d h1 h2 h3 h4
      rw [h1, textGo_amp q hq' _ _ _ _ d e h2 h3]
      exact fin _ _ (by simp) d h4
    by_cases e1 : c = '"'
    · subst e1; exact ent "#34".toList '"' rfl (by decide) rfl rfl
    by_cases e2 : c = '\''
    · subst e2; exact ent "#39".toList '\'' rfl (by decide) rfl rfl
    by_cases e3 : c = '&'
    · subst e3; exact ent "amp".toList '&' rfl (by decide) rfl rfl
    by_cases e4 : c = '<'
    · subst e4; exact ent "lt".toList '<' rfl (by decide) rfl rfl
    by_cases e5 : c = '>'
    · subst e5; exact ent "gt".toList '>' rfl (by decide) rfl rfl
    by_cases e6 : c = '\t'
    · subst e6; exact ent "#x9".toList '\t' rfl (by decide) rfl rfl
    by_cases e7 : c = '\n'
    · subst e7; exact ent "#xA".toList '\n' rfl (by decide) rfl rfl
    by_cases e8 : c = '\r'
    · subst e8; exact ent "#xD".toList '\r' rfl (by decide) rfl rfl
    have hesc : escChar c = [cleanChar c] := by
      unfold escChar cleanChar
      rw [if_neg e1, if_neg e2, if_neg e3, if_neg e4, if_neg e5, if_neg e6, if_neg e7, if_neg e8]
      split <;> rfl
    have hcc : ∀ x : Char, x = '<' ∨ x = '>' ∨ x = '&' ∨ x = '"' ∨ x = '\r' → cleanChar c ≠ x := by
      intro x hx h
      unfold cleanChar at h
      split at h
      · subst h
        rcases hx with h | h | h | h | h <;> contradiction
      · subst h
        revert hx
        decide
    rw [hesc]
    show textGo q false none b0 b1 acc (some (cleanChar c) :: _) = _
    rw [textGo_plain q hq' b0 b1 hb acc _ _ (hcc _ (by simp)) (hcc _ (by simp)) (hcc _ (by simp))
      (hcc _ (by simp)) (hcc _ (by simp))]
    exact fin _ _ (by simpa using hcc '\r' (by simp)) _ rfl

theorem xmlChar_clean (s : List Char) : (s.map cleanChar).all xmlChar = true := by
  rw [List.all_eq_true]
  intro x hx
  obtain ⟨c, _, rfl⟩ := List.mem_map.mp hx
  unfold cleanChar
  split
  · assumption
  · decide

theorem lexText_text (s : String) (rest : List Rune) :
    lexText none false ((escape s).map some ++ some '<' :: rest) = some (clean s, some '<' :: rest) := by
  unfold lexText escape
  rw [textGo_esc none (.inl rfl) _ (some '<' :: rest) (fun _ _ _ => by simp [textGo]) _ _ _ _ (by simp)]
  simp only [List.reverse_nil, List.nil_append, allChars_map, xmlChar_clean, if_true]
  rfl

theorem lexText_end (s : String) :
    lexText none false ((escape s).map some ++ []) = some (clean s, []) := by
  unfold lexText escape
  rw [textGo_esc none (.inl rfl) _ [] (fun _ _ _ => by simp [textGo]) _ _ _ _ (by simp)]
  simp only [List.reverse_nil, List.nil_append, allChars_map, xmlChar_clean, if_true]
  rfl

theorem lexText_attr (s : String) (rest : List Rune) :
    lexText (some '"') false ((escape s).map some ++ some '"' :: rest) = some (clean s, rest) := by
  unfold lexText escape
  rw [textGo_esc (some '"') (.inr rfl) _ rest (fun _ _ _ => by simp [textGo]) _ _ _ _ (by simp)]
  simp only [List.reverse_nil, List.nil_append, allChars_map, xmlChar_clean, if_true]
  rfl

/-! ## Names -/

/-- A character of a plain name -/
def plainChar (c : Char) : Bool := c.isAlphanum || c == '_' || c == '-' || c == '.'

theorem isAlpha_iff (c : Char) : c.isAlpha = true ↔
    (65 ≤ c.toNat ∧ c.toNat ≤ 90) ∨ (97 ≤ c.toNat ∧ c.toNat ≤ 122) := by
  simp [Char.isAlpha, Char.isUpper, Char.isLower, UInt32.le_iff_toNat_le]

theorem isDigit_iff (c : Char) : c.isDigit = true ↔ (48 ≤ c.toNat ∧ c.toNat ≤ 57) := by
  simp [Char.isDigit, UInt32.le_iff_toNat_le]

theorem isFirst_alpha {c : Char} (h : c.isAlpha = true) : isFirst c = true := by
  rw [isAlpha_iff] at h
  unfold isFirst
  rw [if_neg (by omega)]
  rcases h with h | h <;> simp [h]

theorem plainChar_cases {c : Char} (h : plainChar c = true) :
    c.isAlpha = true ∨ c.isDigit = true ∨ c = '_' ∨ c = '-' ∨ c = '.' := by
  simp only [plainChar, Char.isAlphanum, Bool.or_eq_true, beq_iff_eq] at h
  rcases h with (((h | h) | h) | h) | h
  · exact .inl h
  · exact .inr (.inl h)
  · exact .inr (.inr (.inl h))
  · exact .inr (.inr (.inr (.inl h)))
  · exact .inr (.inr (.inr (.inr h)))

theorem isSecond_plain {c : Char} (h : plainChar c = true) : isSecond c = true := by
  rcases plainChar_cases h with h | h | rfl | rfl | rfl
  · simp [isSecond, isFirst_alpha h]
  · rw [isDigit_iff] at h
    have : ¬ 128 ≤ c.toNat := by omega
    simp [isSecond, h, this]
  · rfl
  · rfl
  · rfl

theorem inName_plain {c : Char} (h : plainChar c = true) : inName (some c) = true := by
  rcases plainChar_cases h with h | h | rfl | rfl | rfl
  · rw [isAlpha_iff] at h
    unfold inName isNameByte
    rcases h with h | h <;> simp [h]
  · rw [isDigit_iff] at h
    unfold inName isNameByte
    simp [h]
  · rfl
  · rfl
  · rfl

theorem plain_not {c x : Char} (h : plainChar c = true) (hx : plainChar x = false) : c ≠ x := by
  rintro rfl
  rw [h] at hx
  cases hx

theorem plain_alpha {c : Char} (h : c.isAlpha = true) : plainChar c = true := by
  simp [plainChar, Char.isAlphanum, h]

theorem plainName_cons {s : String} (h : plainName s = true) :
    ∃ c cs, s.toList = c :: cs ∧ c.isAlpha = true ∧ ∀ x ∈ s.toList, plainChar x = true := by
  unfold plainName at h
  split at h
  · cases h
  · rename_i c cs he
    simp only [Bool.and_eq_true, List.all_eq_true] at h
    refine ⟨c, cs, he, h.1, ?_⟩
    intro x hx
    rw [he] at hx
    rcases List.mem_cons.mp hx with rfl | hx
    · exact plain_alpha h.1
    · exact h.2 x hx

theorem takeWhile_stop {α : Type} {p : α → Bool} (xs : List α) {y : α} {ys : List α}
    (h : ∀ x ∈ xs, p x = true) (hy : p y = false) : (xs ++ y :: ys).takeWhile p = xs := by
  rw [List.takeWhile_append_of_pos h]
  simp [hy]

theorem dropWhile_stop {α : Type} {p : α → Bool} (xs : List α) {y : α} {ys : List α}
    (h : ∀ x ∈ xs, p x = true) (hy : p y = false) : (xs ++ y :: ys).dropWhile p = y :: ys := by
  rw [List.dropWhile_append_of_pos h]
  simp [hy]

/-- The characters of a written name -/
theorem qname_chars {q : QName} (h : nameOk q = true) :
    ∃ c cs, q.chars = c :: cs ∧ c.isAlpha = true ∧ ∀ x ∈ q.chars, plainChar x = true ∨ x = ':' := by
  simp only [nameOk, Bool.and_eq_true, Bool.or_eq_true, beq_iff_eq] at h
  obtain ⟨c, cs, h1, h2, h3⟩ := plainName_cons h.2
  unfold QName.chars
  by_cases hp : q.pre = ""
  · rw [if_pos hp]
    exact ⟨c, cs, h1, h2, fun x hx => .inl (h3 x hx)⟩
  · rw [if_neg hp]
    obtain ⟨d, ds, g1, g2, g3⟩ := plainName_cons (h.1.resolve_left hp)
    refine ⟨d, ds ++ ':' :: q.loc.toList, by rw [g1]; rfl, g2, ?_⟩
    intro x hx
    rcases List.mem_append.mp hx with hx | hx
    · exact .inl (g3 x hx)
    · rcases List.mem_cons.mp hx with hx | hx
      · exact .inr hx
      · exact .inl (h3 x hx)

theorem splitName_chars {q : QName} (h : nameOk q = true) : splitName q.chars = some q := by
  simp only [nameOk, Bool.and_eq_true, Bool.or_eq_true, beq_iff_eq] at h
  obtain ⟨c, cs, h1, h2, h3⟩ := plainName_cons h.2
  have hc : plainChar ':' = false := by decide
  have hl : ∀ x ∈ q.loc.toList, (x != ':') = true := by
    intro x hx
    simpa using plain_not (h3 x hx) hc
  have hl0 : q.loc.toList.count ':' = 0 := by
    rw [List.count_eq_zero]
    intro hx
    exact plain_not (h3 _ hx) hc rfl
  unfold splitName QName.chars
  by_cases hp : q.pre = ""
  · rw [if_pos hp, if_neg (by omega)]
    have hd : q.loc.toList.dropWhile (· != ':') = [] := by
      have := List.dropWhile_append_of_pos (l₂ := []) hl
      simpa using this
    simp only [hd]
    simp only [List.drop_nil, List.isEmpty_nil, Bool.or_true, if_true, String.ofList_toList]
    cases q
    simp_all
  · rw [if_neg hp]
    obtain ⟨d, ds, g1, g2, g3⟩ := plainName_cons (h.1.resolve_left hp)
    have hp' : ∀ x ∈ q.pre.toList, (x != ':') = true := by
      intro x hx
      simpa using plain_not (g3 x hx) hc
    have hp0 : q.pre.toList.count ':' = 0 := by
      rw [List.count_eq_zero]
      intro hx
      exact plain_not (g3 _ hx) hc rfl
    rw [if_neg (by rw [List.count_append, List.count_cons_self]; omega)]
    rw [takeWhile_stop _ hp' (by rfl), dropWhile_stop _ hp' (by rfl)]
    have e1 : q.pre.toList.isEmpty = false := by rw [g1]; rfl
    have e2 : q.loc.toList.isEmpty = false := by rw [h1]; rfl
    simp [e1, e2]

theorem lexQName_chars {q : QName} (h : nameOk q = true) (r : Rune) (hr : inName r = false)
    (rest : List Rune) : lexQName (q.chars.map some ++ r :: rest) = some (q, r :: rest) := by
  obtain ⟨c, cs, h1, h2, h3⟩ := qname_chars h
  have hin : ∀ x ∈ q.chars.map some, inName x = true := by
    intro x hx
    obtain ⟨y, hy, rfl⟩ := List.mem_map.mp hx
    rcases h3 y hy with h | rfl
    · exact inName_plain h
    · rfl
  have hn : isName q.chars = true := by
    rw [h1] at h3 ⊢
    unfold isName
    rw [Bool.and_eq_true, List.all_eq_true]
    refine ⟨isFirst_alpha h2, fun x hx => ?_⟩
    rcases h3 x (List.mem_cons_of_mem _ hx) with h | rfl
    · exact isSecond_plain h
    · rfl
  unfold lexQName lexName
  rw [takeWhile_stop _ hin hr, dropWhile_stop _ hin hr]
  simp only [allChars_map, hn, if_true, splitName_chars h]

/-! ## Attributes and tags -/

theorem lexAttr_chars (a : Attr) (h : nameOk a.name = true) (rest : List Rune) :
    lexAttr ((a.name.chars ++ '=' :: '"' :: (escape a.val ++ ['"'])).map some ++ rest) =
      some (⟨a.name, clean a.val⟩, rest) := by
  have : (a.name.chars ++ '=' :: '"' :: (escape a.val ++ ['"'])).map some ++ rest =
      a.name.chars.map some ++ some '=' :: some '"' :: ((escape a.val).map some ++ some '"' :: rest) := by
    simp
  rw [this]
  unfold lexAttr
  rw [lexQName_chars h _ (by rfl)]
  have e1 : ∀ l, (some '=' :: l).dropWhile isXmlSpace = some '=' :: l := fun l => rfl
  have e2 : ∀ l, (some '"' :: l).dropWhile isXmlSpace = some '"' :: l := fun l => rfl
  simp only [e1, e2, lexText_attr]

theorem lexAttrs_chars (as : List Attr) (hs : ∀ a ∈ as, nameOk a.name = true) (rest : List Rune) :
    ∀ (n : Nat) (pre : List Attr), as.length < n →
    lexAttrs n pre ((as.flatMap Attr.chars).map some ++ some '>' :: rest) =
      some (pre ++ as.map fun a => ⟨a.name, clean a.val⟩, false, rest) := by
  induction as with
  | nil =>
    intro n pre hn
    cases n with
    | zero => omega
    | succ n => simp [lexAttrs, isXmlSpace]
  | cons a as ih =>
    intro n pre hn
    cases n with
    | zero => omega
    | succ n =>
      have ha := hs a (List.mem_cons_self ..)
      obtain ⟨c, cs, h1, h2, _⟩ := qname_chars ha
      have key := lexAttr_chars a ha ((as.flatMap Attr.chars).map some ++ some '>' :: rest)
      have e : ((a :: as).flatMap Attr.chars).map some ++ some '>' :: rest =
          some ' ' :: ((a.name.chars ++ '=' :: '"' :: (escape a.val ++ ['"'])).map some ++
            ((as.flatMap Attr.chars).map some ++ some '>' :: rest)) := by
        simp [Attr.chars]
      have hsp : isXmlSpace (some ' ') = true := rfl
      have hc := plain_alpha h2
      have h3 : isXmlSpace (some c) = false := by
        have a1 := plain_not hc (x := ' ') (by decide)
        have a2 := plain_not hc (x := '\r') (by decide)
        have a3 := plain_not hc (x := '\n') (by decide)
        have a4 := plain_not hc (x := '\t') (by decide)
        simp [isXmlSpace, a1, a2, a3, a4]
      have h4 : c ≠ '/' := plain_not hc (by decide)
      have h5 : c ≠ '>' := plain_not hc (by decide)
      rw [e, lexAttrs, List.dropWhile_cons_of_pos hsp]
      rw [h1] at key ⊢
      simp only [List.cons_append, List.map_cons] at key ⊢
      rw [List.dropWhile_cons_of_neg (by simp [h3])]
      split
      · rename_i h; cases h
      · rename_i h; injection h with h _; injection h with h; exact absurd h h4
      · rename_i h; injection h with h _; injection h with h; exact absurd h h4
      · rename_i h; injection h with h _; injection h with h; exact absurd h h5
      · rw [key]
        simp only
        rw [ih (fun b hb => hs b (List.mem_cons_of_mem _ hb)) n _ (by simpa using hn)]
        simp

theorem lexStart_chars (q : QName) (h : nameOk q = true) (as : List Attr)
    (hs : ∀ a ∈ as, nameOk a.name = true) (rest : List Rune) :
    lexStart (q.chars.map some ++ ((as.flatMap Attr.chars).map some ++ some '>' :: rest)) =
      some ([.start q (as.map fun a => ⟨a.name, clean a.val⟩)], rest) := by
  have hn : as.length ≤ (as.flatMap Attr.chars).length := by
    clear hs
    induction as with
    | nil => simp
    | cons a as ih =>
      rw [List.flatMap_cons, List.length_append, List.length_cons]
      have : 0 < a.chars.length := by simp [Attr.chars]
      omega
  have hr : ∃ r l, (as.flatMap Attr.chars).map some ++ some '>' :: rest = r :: l ∧ inName r = false := by
    cases as with
    | nil => exact ⟨_, _, rfl, rfl⟩
    | cons a as => exact ⟨some ' ', _, rfl, rfl⟩
  obtain ⟨r, l, e, hr⟩ := hr
  unfold lexStart
  rw [e, lexQName_chars h r hr, ← e]
  simp only
  rw [lexAttrs_chars as hs rest _ [] (by rw [List.length_append, List.length_map]; omega)]
  simp

theorem lexEnd_chars (q : QName) (h : nameOk q = true) (rest : List Rune) :
    lexEnd (q.chars.map some ++ some '>' :: rest) = some ([.stop q], rest) := by
  unfold lexEnd
  rw [lexQName_chars h _ (by rfl)]
  have e1 : (some '>' :: rest).dropWhile isXmlSpace = some '>' :: rest := rfl
  simp only [e1]

/-! ## The bound on the number of tokens is never reached -/

theorem dropWhile_le {α : Type} (p : α → Bool) (l : List α) : (l.dropWhile p).length ≤ l.length :=
  (List.dropWhile_suffix p).length_le

theorem lexName_lt {rs rest : List Rune} {cs : List Char} (h : lexName rs = some (cs, rest)) :
    rest.length < rs.length := by
  unfold lexName at h
  split at h
  · cases h
  · rename_i r l he
    split at h
    · cases h
    · rename_i cs' hc
      split at h
      · rename_i hn
        cases h
        have hsum : (rs.takeWhile inName).length + (rs.dropWhile inName).length = rs.length := by
          rw [← List.length_append, List.takeWhile_append_dropWhile]
        have hpos : 0 < (rs.takeWhile inName).length := by
          cases ht : rs.takeWhile inName with
          | nil =>
            rw [ht] at hc
            cases hc
            cases hn
          | cons x xs => simp
        rw [he] at hsum
        omega
      · cases h

theorem lexQName_lt {rs rest : List Rune} {q : QName} (h : lexQName rs = some (q, rest)) :
    rest.length < rs.length := by
  unfold lexQName at h
  split at h
  · cases h
  · rename_i cs l he
    have := lexName_lt he
    split at h
    · cases h
    · cases h
      exact this

theorem textGo_le (q : Option Char) (cd : Bool) : ∀ (rs : List Rune) (e : Option (List Rune)) (b0 b1 : Rune)
    (acc t rest : List Rune), textGo q cd e b0 b1 acc rs = some (t, rest) → rest.length ≤ rs.length := by
  intro rs
  induction rs with
  | nil =>
    intro e b0 b1 acc t rest h
    cases e with
    | none =>
      rw [textGo] at h
      split at h
      · cases h
      · cases h; simp
    | some e => rw [textGo] at h; cases h
  | cons r rs ih =>
    intro e b0 b1 acc t rest h
    have ih' : ∀ {e b0 b1 acc}, textGo q cd e b0 b1 acc rs = some (t, rest) → rest.length ≤ (r :: rs).length :=
      fun h => Nat.le_succ_of_le (ih _ _ _ _ _ _ h)
    cases e with
    | none =>
      rw [textGo] at h
      repeat' split at h
      all_goals first
        | exact ih' h
        | cases h
      all_goals simp
    | some e =>
      rw [textGo] at h
      repeat' split at h
      all_goals first
        | exact ih' h
        | cases h

theorem textGo_lt (q : Option Char) (cd : Bool) (r : Rune) (rs : List Rune) (hr : r ≠ some '<')
    (b0 b1 : Rune) (acc t rest : List Rune) (h : textGo q cd none b0 b1 acc (r :: rs) = some (t, rest)) :
    rest.length < (r :: rs).length := by
  rw [textGo] at h
  rw [if_neg (c := r = some '<' ∧ _) (fun h => hr h.1)] at h
  rw [List.length_cons, Nat.lt_succ_iff]
  repeat' split at h
  all_goals first
    | exact textGo_le q cd _ _ _ _ _ _ _ h
    | cases h
  all_goals simp

theorem lexText_le {q : Option Char} {cd : Bool} {rs rest : List Rune} {s : String}
    (h : lexText q cd rs = some (s, rest)) : rest.length ≤ rs.length := by
  unfold lexText at h
  repeat' split at h
  all_goals cases h
  rename_i ht
  exact textGo_le _ _ _ _ _ _ _ _ _ ht

theorem lexText_lt {q : Option Char} {cd : Bool} {r : Rune} {rs rest : List Rune} {s : String}
    (hr : r ≠ some '<') (h : lexText q cd (r :: rs) = some (s, rest)) : rest.length < (r :: rs).length := by
  unfold lexText at h
  repeat' split at h
  all_goals cases h
  rename_i ht
  exact textGo_lt _ _ _ _ hr _ _ _ _ _ ht

theorem lexAttr_le {rs rest : List Rune} {a : Attr} (h : lexAttr rs = some (a, rest)) :
    rest.length ≤ rs.length := by
  unfold lexAttr at h
  split at h
  · cases h
  · rename_i q l hq
    have h1 := lexQName_lt hq
    split at h
    · rename_i l2 h2
      have h2' := dropWhile_le isXmlSpace l
      rw [h2] at h2'
      have h3' := dropWhile_le isXmlSpace l2
      split at h
      · rename_i l3 h3
        rw [h3] at h3'
        split at h
        · rename_i v l4 h4
          have := lexText_le h4
          cases h
          simp only [List.length_cons] at *
          omega
        · cases h
      · rename_i l3 h3
        rw [h3] at h3'
        split at h
        · rename_i v l4 h4
          have := lexText_le h4
          cases h
          simp only [List.length_cons] at *
          omega
        · cases h
      · cases h
    · cases h

theorem lexAttrs_le : ∀ (n : Nat) (pre as : List Attr) (b : Bool) (rs rest : List Rune),
    lexAttrs n pre rs = some (as, b, rest) → rest.length ≤ rs.length := by
  intro n
  induction n with
  | zero => intro pre as b rs rest h; cases h
  | succ n ih =>
    intro pre as b rs rest h
    have hd := dropWhile_le isXmlSpace rs
    rw [lexAttrs] at h
    split at h
    · cases h
    · rename_i l he
      rw [he] at hd
      cases h
      simp only [List.length_cons] at hd
      omega
    · cases h
    · rename_i l he
      rw [he] at hd
      cases h
      simp only [List.length_cons] at hd
      omega
    · split at h
      · rename_i a l ha
        have h1 := lexAttr_le ha
        have h2 := ih _ _ _ _ _ h
        omega
      · cases h

theorem lexComment_le : ∀ (rs : List Rune) (b0 b1 : Rune) (rest : List Rune),
    lexComment b0 b1 rs = some rest → rest.length ≤ rs.length := by
  intro rs
  induction rs with
  | nil => intro b0 b1 rest h; cases h
  | cons r rs ih =>
    intro b0 b1 rest h
    rw [lexComment] at h
    repeat' split at h
    · cases h; simp
    · cases h
    · exact Nat.le_succ_of_le (ih _ _ _ h)

theorem lexInstr_le : ∀ (rs : List Rune) (b0 : Rune) (acc t rest : List Rune),
    lexInstr b0 acc rs = some (t, rest) → rest.length ≤ rs.length := by
  intro rs
  induction rs with
  | nil => intro b0 acc t rest h; cases h
  | cons r rs ih =>
    intro b0 acc t rest h
    rw [lexInstr] at h
    split at h
    · cases h; simp
    · exact Nat.le_succ_of_le (ih _ _ _ _ h)

theorem lexDir_le : ∀ (rs : List Rune) (st : DirSt) (rest : List Rune),
    lexDir st rs = some rest → rest.length ≤ rs.length := by
  intro rs
  induction rs with
  | nil => intro st rest h; cases st <;> cases h
  | cons r rs ih =>
    intro st rest h
    cases st with
    | plain q d =>
      rw [lexDir] at h
      split at h
      · cases h; simp
      · exact Nat.le_succ_of_le (ih _ _ h)
    | lt n d =>
      rw [lexDir] at h
      repeat' split at h
      all_goals exact Nat.le_succ_of_le (ih _ _ h)
    | comment b0 b1 d =>
      rw [lexDir] at h
      repeat' split at h
      all_goals exact Nat.le_succ_of_le (ih _ _ h)

theorem afterPrefix_le : ∀ (cs : List Char) (rs rest : List Rune), afterPrefix cs rs = some rest →
    rest.length ≤ rs.length := by
  intro cs
  induction cs with
  | nil => intro rs rest h; cases h; simp
  | cons c cs ih =>
    intro rs rest h
    cases rs with
    | nil => cases h
    | cons r rs =>
      cases r with
      | none => cases h
      | some d =>
        rw [afterPrefix] at h
        split at h
        · exact Nat.le_succ_of_le (ih _ _ h)
        · cases h

theorem lexStart_lt {rs rest : List Rune} {ts : List Tok} (h : lexStart rs = some (ts, rest)) :
    rest.length < rs.length := by
  unfold lexStart at h
  split at h
  · cases h
  · rename_i q l hq
    have h1 := lexQName_lt hq
    split at h
    · rename_i ha
      have := lexAttrs_le _ _ _ _ _ _ ha
      cases h
      omega
    · rename_i ha
      have := lexAttrs_le _ _ _ _ _ _ ha
      cases h
      omega
    · cases h

theorem lexEnd_lt {rs rest : List Rune} {ts : List Tok} (h : lexEnd rs = some (ts, rest)) :
    rest.length < rs.length := by
  unfold lexEnd at h
  split at h
  · cases h
  · rename_i q l hq
    have h1 := lexQName_lt hq
    have h2 := dropWhile_le isXmlSpace l
    split at h
    · rename_i l2 he
      rw [he] at h2
      cases h
      simp only [List.length_cons] at h2
      omega
    · cases h

theorem lexPI_lt {rs rest : List Rune} {ts : List Tok} (h : lexPI rs = some (ts, rest)) :
    rest.length < rs.length := by
  unfold lexPI at h
  split at h
  · cases h
  · rename_i q l hq
    have h1 := lexName_lt hq
    have h2 := dropWhile_le isXmlSpace l
    split at h
    · cases h
    · rename_i d l2 he
      have h3 := lexInstr_le _ _ _ _ _ he
      split at h
      · cases h
      · cases h
        omega

theorem lexTok_lt {rs rest : List Rune} {ts : List Tok} (hne : rs ≠ []) (h : lexTok rs = some (ts, rest)) :
    rest.length < rs.length := by
  unfold lexTok at h
  split at h
  · have := lexEnd_lt h
    simp only [List.length_cons]; omega
  · have := lexPI_lt h
    simp only [List.length_cons]; omega
  · split at h
    · rename_i hc
      have := lexComment_le _ _ _ _ hc
      cases h
      simp only [List.length_cons]; omega
    · cases h
  · cases h
  · split at h
    · cases h
    · rename_i hp
      have := afterPrefix_le _ _ _ hp
      split at h
      · rename_i ht
        have := lexText_le ht
        cases h
        simp only [List.length_cons]; omega
      · cases h
  · split at h
    · rename_i hc
      have := lexDir_le _ _ _ hc
      cases h
      simp only [List.length_cons]; omega
    · cases h
  · have := lexStart_lt h
    simp only [List.length_cons]; omega
  · rename_i hlt
    split at h
    · rename_i ht
      cases rs with
      | nil => exact absurd rfl hne
      | cons r rs =>
        have := lexText_lt (fun e => hlt rs (by rw [e])) ht
        cases h
        exact this
    · cases h

/-- The lexer with the bound it needs -/
def lexR (rs : List Rune) : List Tok := lexN (rs.length + 1) rs

theorem lexN_enough : ∀ (n : Nat) (rs : List Rune), rs.length < n → lexN n rs = lexR rs := by
  intro n
  induction n using Nat.strongRecOn with
  | ind n ih =>
    intro rs hn
    cases n with
    | zero => omega
    | succ n =>
      cases rs with
      | nil => rfl
      | cons r rs =>
        unfold lexR
        rw [lexN, List.length_cons, lexN]
        cases ht : lexTok (r :: rs) with
        | none => rfl
        | some p =>
          obtain ⟨ts, rest⟩ := p
          have hl := lexTok_lt (by simp) ht
          simp only
          simp only [List.length_cons] at hl hn
          rw [ih n (by omega) rest (by omega)]
          by_cases hm : rs.length + 1 = n + 1
          · rw [ih (rs.length + 1) (by omega) rest (by omega)]
          · rw [ih (rs.length + 1) (by omega) rest (by omega)]

theorem lexR_cons (r : Rune) (rs : List Rune) :
    lexR (r :: rs) = match lexTok (r :: rs) with
      | none => [.bad]
      | some (ts, rest) => ts ++ lexR rest := by
  conv => lhs; unfold lexR
  rw [List.length_cons, lexN]
  cases ht : lexTok (r :: rs) with
  | none => rfl
  | some p =>
    obtain ⟨ts, rest⟩ := p
    have hl := lexTok_lt (by simp) ht
    simp only
    rw [lexN_enough _ _ (by simpa using hl)]

/-! ## Trees -/

/-- The next thing is a tag, or the end of the file -/
def TagNext (rs : List Rune) : Prop := rs = [] ∨ ∃ l, rs = some '<' :: l

mutual
theorem lex_node : ∀ (n : Node) (rest : List Rune), n.printable = true → (n.isText = true → TagNext rest) →
    lexR (n.chars.map some ++ rest) = n.clean.toks ++ lexR rest
  | .elem q as kids, rest, h, _ => by
    simp only [Node.printable, Bool.and_eq_true, List.all_eq_true] at h
    obtain ⟨⟨hq, ha⟩, hk⟩ := h
    obtain ⟨c, cs, h1, h2, _⟩ := qname_chars hq
    have hc := plain_alpha h2
    have hstart : lexTok (some '<' :: (q.chars.map some ++ ((as.flatMap Attr.chars).map some ++ some '>' ::
        ((charsL kids).map some ++ some '<' :: some '/' :: (q.chars.map some ++ some '>' :: rest))))) =
        some ([.start q (as.map fun a => ⟨a.name, clean a.val⟩)],
          (charsL kids).map some ++ some '<' :: some '/' :: (q.chars.map some ++ some '>' :: rest)) := by
      have := lexStart_chars q hq as ha
        ((charsL kids).map some ++ some '<' :: some '/' :: (q.chars.map some ++ some '>' :: rest))
      rw [h1] at this ⊢
      simp only [List.map_cons, List.cons_append] at this ⊢
      unfold lexTok
      split
      · rename_i h; injection h with _ h; injection h with h _; injection h with h
        exact absurd h (plain_not hc (by decide))
      · rename_i h; injection h with _ h; injection h with h _; injection h with h
        exact absurd h (plain_not hc (by decide))
      · rename_i h; injection h with _ h; injection h with h _; injection h with h
        exact absurd h (plain_not hc (by decide))
      · rename_i h; injection h with _ h; injection h with h _; injection h with h
        exact absurd h (plain_not hc (by decide))
      · rename_i h; injection h with _ h; injection h with h _; injection h with h
        exact absurd h (plain_not hc (by decide))
      · rename_i h; injection h with _ h; injection h with h _; injection h with h
        exact absurd h (plain_not hc (by decide))
      · rename_i h; injection h with _ h; subst h
        exact this
      · rename_i h; exact absurd rfl (h _)
    have hend : lexTok (some '<' :: some '/' :: (q.chars.map some ++ some '>' :: rest)) =
        some ([.stop q], rest) := lexEnd_chars q hq rest
    have e : (Node.elem q as kids).chars.map some ++ rest = some '<' :: (q.chars.map some ++
        ((as.flatMap Attr.chars).map some ++ some '>' ::
        ((charsL kids).map some ++ some '<' :: some '/' :: (q.chars.map some ++ some '>' :: rest)))) := by
      simp [Node.chars]
    rw [e, lexR_cons, hstart]
    simp only
    rw [lex_nodes kids _ hk (.inr ⟨_, rfl⟩), lexR_cons, hend]
    simp [Node.clean, Node.toks]
  | .text s, rest, h, hr => by
    simp only [Node.printable, bne_iff_ne, ne_eq] at h
    have hne : ∃ c cs, s.toList = c :: cs := by
      cases hs : s.toList with
      | nil =>
        have := String.ofList_toList (s := s)
        rw [hs] at this
        exact absurd this.symm h
      | cons c cs => exact ⟨c, cs, rfl⟩
    obtain ⟨c, cs, hs⟩ := hne
    have hesc : ∃ d ds, escape s = d :: ds ∧ d ≠ '<' := by
      have : ∃ d ds, escChar c = d :: ds ∧ d ≠ '<' := by
        unfold escChar
        repeat' split
        all_goals first
          | exact ⟨_, _, rfl, by decide⟩
          | exact ⟨_, _, rfl, by assumption⟩
      obtain ⟨d, ds, h1, h2⟩ := this
      refine ⟨d, ds ++ cs.flatMap escChar, ?_, h2⟩
      rw [escape, hs, List.flatMap_cons, h1]
      rfl
    have key : lexText none false ((escape s).map some ++ rest) = some (clean s, rest) := by
      rcases hr rfl with rfl | ⟨l, rfl⟩
      · exact lexText_end s
      · exact lexText_text s l
    show lexR ((escape s).map some ++ rest) = _
    obtain ⟨d, ds, h1, h2⟩ := hesc
    rw [h1] at key ⊢
    simp only [List.map_cons, List.cons_append] at key ⊢
    rw [lexR_cons]
    have ht : lexTok (some d :: (ds.map some ++ rest)) = some ([.chars (clean s)], rest) := by
      unfold lexTok
      split
      all_goals first
        | (rename_i h; injection h with h _; injection h with h; exact absurd h h2)
        | skip
      rw [key]
    rw [ht]
    rfl
  | .other, _, h, _ => by cases h
theorem lex_nodes : ∀ (ns : List Node) (rest : List Rune), printableL ns = true → TagNext rest →
    lexR ((charsL ns).map some ++ rest) = toksL (cleanL ns) ++ lexR rest
  | [], rest, _, _ => by simp [charsL, cleanL, toksL]
  | n :: ns, rest, h, hr => by
    simp only [printableL, Bool.and_eq_true] at h
    obtain ⟨⟨h1, h2⟩, h3⟩ := h
    have e : (charsL (n :: ns)).map some ++ rest = n.chars.map some ++ ((charsL ns).map some ++ rest) := by
      simp [charsL]
    rw [e, lex_node n _ h1 ?_, lex_nodes ns rest h3 hr]
    · simp [cleanL, toksL]
    · intro ht
      cases ns with
      | nil => exact hr
      | cons m ns =>
        cases m with
        | elem q as kids => exact .inr ⟨_, by simp [charsL, Node.chars]; rfl⟩
        | text s =>
          rw [ht] at h2
          cases h2
        | other => simp [printableL, Node.printable] at h3
end

/-! ## Files -/

theorem xmlHeader_toks (rs : List Rune) :
    lexR (xmlHeader.toList.map some ++ some '<' :: rs) = .other :: .chars "\n" :: lexR (some '<' :: rs) := by
  have h1 : xmlHeader.toList.map some ++ some '<' :: rs =
      some '<' :: some '?' :: ("xml version=\"1.0\" encoding=\"UTF-8\"?>".toList.map some ++
        some '\n' :: some '<' :: rs) := rfl
  have h2 : lexTok (some '<' :: some '?' :: ("xml version=\"1.0\" encoding=\"UTF-8\"?>".toList.map some ++
        some '\n' :: some '<' :: rs)) = some ([.other], some '\n' :: some '<' :: rs) := by
    rfl
  have h3 : lexTok (some '\n' :: some '<' :: rs) = some ([.chars "\n"], some '<' :: rs) := by
    rfl
  rw [h1, lexR_cons, h2]
  simp only
  rw [lexR_cons, h3]
  rfl

/-- Reading a written part gives the declaration, a line break, and the tokens of its cleaned tree. -/
theorem lex_xmlBytes (q : QName) (as : List Attr) (kids : List Node)
    (h : (Node.elem q as kids).printable = true) :
    lex (xmlBytes (.elem q as kids)) = .other :: .chars "\n" :: (Node.elem q as kids).clean.toks := by
  unfold lex xmlBytes
  rw [runes_utf8]
  show lexR _ = _
  have h1 := lex_node (.elem q as kids) [] h (fun h => by cases h)
  have h2 : ∃ l, (Node.elem q as kids).chars.map some = some '<' :: l := ⟨_, by simp [Node.chars]; rfl⟩
  obtain ⟨l, h2⟩ := h2
  rw [List.append_nil] at h1
  rw [List.map_append, h2, xmlHeader_toks, ← h2, h1]
  show _ :: _ :: (_ ++ []) = _
  rw [List.append_nil]

end Docx
