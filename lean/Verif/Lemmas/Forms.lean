import Verif.SpecForms
import Verif.Lemmas.XmlText

/-!
# Reading XML that another program has written
-/

namespace Docx

set_option linter.unusedSectionVars false

variable [GoEnv]

/-! ## Characters and references -/

theorem xmlChar_allowed {c : Char} (h : Allowed c) : xmlChar c = true := by
  have hv : c.toNat ≤ 0x10FFFF := by
    have := c.valid
    simp only [UInt32.isValidChar, Nat.isValidChar] at this
    show c.val.toNat ≤ _
    omega
  simp only [xmlChar, Bool.or_eq_true, beq_iff_eq, Bool.and_eq_true, decide_eq_true_eq]
  rcases h with rfl | rfl | rfl | h | h | h
  · simp
  · simp
  · simp
  · omega
  · omega
  · omega

theorem digitIn_of {base : Nat} {c : Char} {d : Nat} (hx : Bool) (hb : base = if hx then 16 else 10)
    (h : Digit base c d) : digitIn hx c = some d := by
  obtain ⟨h1, h2⟩ := h
  have h3 : d < 16 := by cases hx <;> simp at hb <;> omega
  have key : ∀ d : Fin 16, ∀ hx : Bool, d.val < (if hx then 16 else 10) →
      (digitIn hx ("0123456789abcdef".toList[d.val]?.getD 'z') = some d.val ∧
        digitIn hx ("0123456789ABCDEF".toList[d.val]?.getD 'z') = some d.val) := by decide
  have := key ⟨d, h3⟩ hx (by simpa [← hb] using h1)
  rcases h2 with h2 | h2
  · have h := this.1; rw [h2] at h; exact h
  · have h := this.2; rw [h2] at h; exact h

theorem numIn_append (hx : Bool) (c : Char) : ∀ (cs : List Char) (acc : Nat),
    numIn hx acc (cs ++ [c]) = (numIn hx acc cs).bind fun n => (digitIn hx c).map fun d =>
      n * (if hx then 16 else 10) + d := by
  intro cs
  induction cs with
  | nil => intro acc; simp only [List.nil_append, numIn]; cases digitIn hx c <;> rfl
  | cons a cs ih =>
    intro acc
    simp only [List.cons_append, numIn]
    cases digitIn hx a with
    | none => rfl
    | some d => exact ih _

theorem numIn_numeral {base : Nat} {cs : List Char} {n : Nat} (hx : Bool) (hb : base = if hx then 16 else 10)
    (h : Numeral base cs n) : numIn hx 0 cs = some n := by
  induction h with
  | one h => simp [numIn, digitIn_of hx hb h]
  | more _ h ih => rw [numIn_append, ih, digitIn_of hx hb h, hb]; rfl

theorem numeral_chars {base : Nat} {cs : List Char} {n : Nat} (h : Numeral base cs n) :
    cs ≠ [] ∧ ∀ c ∈ cs, c ≠ ';' ∧ c ≠ 'x' := by
  have hd : ∀ {c d}, Digit base c d → c ≠ ';' ∧ c ≠ 'x' := by
    intro c d ⟨_, h⟩
    have hm : c ∈ "0123456789abcdef0123456789ABCDEF".toList := by
      rcases h with h | h
      · have := List.mem_of_getElem? h
        revert this; exact fun h => List.mem_append_left "0123456789ABCDEF".toList h
      · have := List.mem_of_getElem? h
        revert this; exact fun h => List.mem_append_right "0123456789abcdef".toList h
    constructor
    · rintro rfl; revert hm; decide
    · rintro rfl; revert hm; decide
  induction h with
  | one h => exact ⟨by simp, by intro c hc; rw [List.mem_singleton.1 hc]; exact hd h⟩
  | more _ h ih =>
    refine ⟨by simp, ?_⟩
    intro c hc
    rcases List.mem_append.1 hc with hc | hc
    · exact ih.2 c hc
    · rw [List.mem_singleton.1 hc]; exact hd h

theorem runeOf_toNat (c : Char) : runeOf c.toNat = c ∧ c.toNat ≤ 0x10FFFF := by
  have h := c.valid
  simp only [UInt32.isValidChar, Nat.isValidChar] at h
  have e : c.toNat = c.val.toNat := rfl
  constructor
  · unfold runeOf
    rw [if_neg]
    · exact Char.ofNat_toNat c
    · simp only [Bool.and_eq_true, decide_eq_true_eq]; omega
  · omega

theorem reference_entity {c : Char} {r : List Char} (h : Reference c r) :
    ∃ e, r = '&' :: e ++ [';'] ∧ (∀ x ∈ e, x ≠ ';') ∧ entity e = some c := by
  cases h with
  | lt => exact ⟨"lt".toList, rfl, by decide, rfl⟩
  | gt => exact ⟨"gt".toList, rfl, by decide, rfl⟩
  | amp => exact ⟨"amp".toList, rfl, by decide, rfl⟩
  | apos => exact ⟨"apos".toList, rfl, by decide, rfl⟩
  | quot => exact ⟨"quot".toList, rfl, by decide, rfl⟩
  | @dec _ ds h =>
    have hn := numIn_numeral false rfl h
    obtain ⟨h1, h2⟩ := numeral_chars h
    obtain ⟨r1, r2⟩ := runeOf_toNat c
    refine ⟨'#' :: ds, rfl, ?_, ?_⟩
    · intro x hx
      rcases List.mem_cons.1 hx with rfl | hx
      · decide
      · exact (h2 x hx).1
    · cases ds with
      | nil => exact absurd rfl h1
      | cons d ds =>
        have hd : d ≠ 'x' := (h2 d (by simp)).2
        unfold entity
        split
        · rename_i h; injection h with _ h; injection h with h _; exact absurd h hd
        · rename_i h; injection h with _ h; subst h
          simp [hn, r1, r2]
        · rename_i h; exact absurd rfl (h _)
  | @hex _ ds h =>
    have hn := numIn_numeral true rfl h
    obtain ⟨h1, h2⟩ := numeral_chars h
    obtain ⟨r1, r2⟩ := runeOf_toNat c
    refine ⟨'#' :: 'x' :: ds, rfl, ?_, ?_⟩
    · intro x hx
      rcases List.mem_cons.1 hx with rfl | hx
      · decide
      rcases List.mem_cons.1 hx with rfl | hx
      · decide
      · exact (h2 x hx).1
    · have : ds.isEmpty = false := by cases ds <;> simp_all
      simp [entity, this, hn, r1, r2]

/-! ## Texts -/

/-- The quote of a place -/
def Spot.quote : Spot → Option Char
  | .value q => some q
  | _ => none

/-- Is it a CDATA section? -/
def Spot.isCdata : Spot → Bool
  | .cdata => true
  | _ => false

/-- Nothing of what was read before and comes now is `]]>`. -/
def Open (b0 b1 : Rune) (w : List Char) : Prop :=
  ∀ a b, b0 :: b1 :: w.map some ≠ a ++ [some ']', some ']', some '>'] ++ b

theorem Open.tail {b0 b1 : Rune} {c : Char} {w : List Char} (h : Open b0 b1 (c :: w)) : Open b1 (some c) w := by
  intro a b he
  exact h (b0 :: a) b (by rw [List.map_cons, he]; rfl)

theorem Open.not {b0 b1 : Rune} {c : Char} {w : List Char} (h : Open b0 b1 (c :: w)) :
    ¬ (b0 = some ']' ∧ b1 = some ']' ∧ some c = some '>') := by
  rintro ⟨rfl, rfl, h1⟩
  cases h1
  exact h [] (w.map some) rfl

theorem open_of_without {w : List Char} (h : Without "]]>" w) : Open none none w := by
  intro a b he
  cases a with
  | nil => cases he
  | cons x a =>
    cases a with
    | nil => simp at he
    | cons y a =>
      simp only [List.cons_append, List.cons.injEq] at he
      obtain ⟨_, _, he⟩ := he
      have h1 : ∃ a' b', a = a'.map some ∧ b = b'.map some ∧ w = a' ++ "]]>".toList ++ b' := by
        obtain ⟨w1, w2, rfl, e1, e2⟩ := List.map_eq_append_iff.1 he
        obtain ⟨w3, w4, rfl, e3, e4⟩ := List.map_eq_append_iff.1 e1
        refine ⟨w3, w2, e3.symm, e2.symm, ?_⟩
        have : w4 = "]]>".toList := by
          have : w4.map some = "]]>".toList.map some := e4
          exact List.map_inj_right (fun _ _ h => Option.some.inj h) |>.1 this
        rw [this]
      obtain ⟨a', b', _, _, h2⟩ := h1
      exact h a' b' h2

theorem Open.drop {b0 b1 : Rune} {r w : List Char} (h : Open b0 b1 (r ++ w)) : Open none none w := by
  apply open_of_without
  intro a b he
  exact h (b0 :: b1 :: (r.map some ++ a.map some)) (b.map some) (by rw [he]; simp)

/-- One step of the reading of a text -/
theorem textGo_self (p : Spot) {c : Char} (hc : p.takes c) (hr : c ≠ '\r') {b0 b1 : Rune}
    (h1 : b1 = some '\r' → c ≠ '\n') (h2 : p.quote = none → ¬ (b0 = some ']' ∧ b1 = some ']' ∧ some c = some '>'))
    (acc tail : List Rune) :
    textGo p.quote p.isCdata none b0 b1 acc (some c :: tail) =
      textGo p.quote p.isCdata none b1 (some c) (some c :: acc) tail := by
  have h1' : ¬ (b1 = some '\r' ∧ (some c : Rune) = some '\n') := fun h => h1 h.1 (Option.some.inj h.2)
  have hr' : (some c : Rune) ≠ some '\r' := fun h => hr (Option.some.inj h)
  cases p with
  | between =>
    simp only [Spot.takes] at hc
    have h2 := h2 rfl
    have h3 : ¬ ((none : Option Char) = none ∧ b0 = some ']' ∧ b1 = some ']' ∧ some c = some '>') := fun h => h2 h.2
    simp only [Spot.quote, Spot.isCdata]
    rw [textGo]
    simp only [if_neg h3, if_neg hr', if_neg h1']
    simp [hc.1, hc.2]
    exact fun e1 e2 e3 => absurd ⟨e1, e2, congrArg some e3⟩ h2
  | value q =>
    simp only [Spot.takes] at hc
    simp only [Spot.quote, Spot.isCdata]
    rw [textGo]
    simp only [if_neg hr', if_neg h1']
    simp [hc.1, hc.2.1, hc.2.2]
  | cdata =>
    have h2 := h2 rfl
    have h3 : ¬ ((none : Option Char) = none ∧ b0 = some ']' ∧ b1 = some ']' ∧ some c = some '>') := fun h => h2 h.2
    simp only [Spot.quote, Spot.isCdata]
    rw [textGo]
    simp only [if_neg h3, if_neg hr', if_neg h1']
    simp
    exact fun e1 e2 e3 => absurd ⟨e1, e2, congrArg some e3⟩ h2

theorem textGo_cr (p : Spot) (hq : ∀ q, p = .value q → q ≠ '\r') (b0 b1 : Rune) (acc tail : List Rune) :
    textGo p.quote p.isCdata none b0 b1 acc (some '\r' :: tail) =
      textGo p.quote p.isCdata none b1 (some '\r') (some '\n' :: acc) tail := by
  rw [textGo]
  cases p with
  | between => simp [Spot.quote, Spot.isCdata]
  | value q =>
    have : (some '\r' : Rune) ≠ some q := fun h => hq q rfl (Option.some.inj h).symm
    simp [Spot.quote, Spot.isCdata, Option.some.inj, (hq q rfl).symm]
  | cdata => simp [Spot.quote, Spot.isCdata]

theorem textGo_crlf (p : Spot) (hq : ∀ q, p = .value q → q ≠ '\n') (b0 : Rune) (acc tail : List Rune) :
    textGo p.quote p.isCdata none b0 (some '\r') acc (some '\n' :: tail) =
      textGo p.quote p.isCdata none (some '\r') (some '\n') acc tail := by
  rw [textGo]
  cases p with
  | between => simp [Spot.quote, Spot.isCdata]
  | value q => simp [Spot.quote, Spot.isCdata, (hq q rfl).symm]
  | cdata => simp [Spot.quote, Spot.isCdata]

theorem textGo_amp' (p : Spot) (hp : p.isCdata = false) (hq : ∀ q, p = .value q → q ≠ '&') (b0 b1 : Rune)
    (acc tail : List Rune) (c : Char) (e : List Char) (hx : ∀ x ∈ e, x ≠ ';') (he : entity e = some c) :
    textGo p.quote p.isCdata none b0 b1 acc (('&' :: e ++ [';']).map some ++ tail) =
      textGo p.quote p.isCdata none none none (some c :: acc) tail := by
  have h1 : ('&' :: e ++ [';']).map some ++ tail = some '&' :: (e.map some ++ some ';' :: tail) := by simp
  have h2 := textGo_ent p.quote p.isCdata b0 b1 acc tail c e [] hx he
  rw [h1, ← h2]
  rw [textGo]
  cases p with
  | between => simp [Spot.quote, Spot.isCdata]
  | value q => simp [Spot.quote, Spot.isCdata, (hq q rfl).symm]
  | cdata => cases hp

/-- Reading a text, in whatever way it is written -/
theorem textGo_spelled (p : Spot) (hq : ∀ q, p = .value q → q = '"' ∨ q = '\'') {s w : List Char}
    (h : Spelled p s w) (tail : List Rune) : ∀ (b0 b1 : Rune) (acc : List Rune),
    (b1 = some '\r' → w.head? ≠ some '\n') → (p.quote = none → Open b0 b1 w) →
    ∃ b0' b1', textGo p.quote p.isCdata none b0 b1 acc (w.map some ++ tail) =
      textGo p.quote p.isCdata none b0' b1' ((s.map some).reverse ++ acc) tail := by
  have hne : ∀ x : Char, x ≠ '"' → x ≠ '\'' → ∀ q, p = .value q → q ≠ x := by
    intro x h1 h2 q hp h
    rcases hq q hp with rfl | rfl
    · exact h1 h.symm
    · exact h2 h.symm
  induction h with
  | nil => intro b0 b1 acc _ _; exact ⟨b0, b1, rfl⟩
  | @self c s w _ h2 h3 _ ih =>
    intro b0 b1 acc hr ho
    obtain ⟨b0', b1', e⟩ := ih b1 (some c) (some c :: acc) (fun h => absurd (Option.some.inj h) h2)
      (fun h => (ho h).tail)
    refine ⟨b0', b1', ?_⟩
    rw [List.map_cons, List.cons_append, textGo_self p h3 h2 (fun h hc => hr h (by rw [hc]; rfl))
      (fun h => (ho h).not), e]
    simp
  | @reference c r s w h1 _ h3 _ ih =>
    intro b0 b1 acc _ ho
    obtain ⟨e, rfl, he1, he2⟩ := reference_entity h3
    obtain ⟨b0', b1', e'⟩ := ih none none (some c :: acc) (fun h => by cases h) (fun h => (ho h).drop)
    refine ⟨b0', b1', ?_⟩
    rw [List.map_append, List.append_assoc, textGo_amp' p (by cases p <;> first | rfl | exact absurd rfl h1)
      (hne _ (by decide) (by decide)) b0 b1 acc _ c e he1 he2, e']
    simp
  | @crlf s w _ ih =>
    intro b0 b1 acc _ ho
    obtain ⟨b0', b1', e'⟩ := ih (some '\r') (some '\n') (some '\n' :: acc) (fun h => by simp at h)
      (fun h => (ho h).tail.tail)
    refine ⟨b0', b1', ?_⟩
    rw [List.map_cons, List.map_cons, List.cons_append, List.cons_append,
      textGo_cr p (hne _ (by decide) (by decide)), textGo_crlf p (hne _ (by decide) (by decide)), e']
    simp
  | @cr s w h1 _ ih =>
    intro b0 b1 acc _ ho
    obtain ⟨b0', b1', e'⟩ := ih b1 (some '\r') (some '\n' :: acc) (fun _ => h1)
      (fun h => (ho h).tail)
    refine ⟨b0', b1', ?_⟩
    rw [List.map_cons, List.cons_append, textGo_cr p (hne _ (by decide) (by decide)), e']
    simp

theorem spelled_allowed {p : Spot} {s w : List Char} (h : Spelled p s w) : s.all xmlChar = true := by
  induction h with
  | nil => rfl
  | self h _ _ _ ih => rw [List.all_cons, xmlChar_allowed h, ih]; rfl
  | reference _ h _ _ ih => rw [List.all_cons, xmlChar_allowed h, ih]; rfl
  | crlf _ ih => rw [List.all_cons, ih]; decide
  | cr _ _ ih => rw [List.all_cons, ih]; decide

theorem lexText_of {q : Option Char} {cd : Bool} {rs rest : List Rune} {s : List Char}
    (h : textGo q cd none none none [] rs = some (s.map some, rest)) (hs : s.all xmlChar = true) :
    lexText q cd rs = some (String.ofList s, rest) := by
  unfold lexText
  rw [h]
  simp only
  rw [allChars_map]
  simp only [hs, if_true]

theorem lexText_between {s : String} {w : List Char} (h : Spelled .between s.toList w) (hw : Without "]]>" w)
    (rest : List Rune) (hr : TagNext rest) : lexText none false (w.map some ++ rest) = some (s, rest) := by
  obtain ⟨b0, b1, e⟩ := textGo_spelled .between (fun _ h => by cases h) h rest none none []
    (fun h => by cases h) (fun _ => open_of_without hw)
  have := lexText_of (q := none) (cd := false) (rs := w.map some ++ rest) (rest := rest) (s := s.toList) ?_
    (spelled_allowed h)
  · rw [this, String.ofList_toList]
  · rw [show textGo none false none none none [] (w.map some ++ rest) = _ from e]
    rcases hr with rfl | ⟨l, rfl⟩
    · simp [textGo, Spot.isCdata]
    · simp [textGo, Spot.isCdata, Spot.quote]

theorem lexText_value {s : String} {w : List Char} {q : Char} (hq : q = '"' ∨ q = '\'')
    (h : Spelled (.value q) s.toList w) (rest : List Rune) :
    lexText (some q) false (w.map some ++ some q :: rest) = some (s, rest) := by
  obtain ⟨b0, b1, e⟩ := textGo_spelled (.value q) (fun _ h => by cases h; exact hq) h (some q :: rest) none none []
    (fun h => by cases h) (fun h => by cases h)
  have := lexText_of (q := some q) (cd := false) (rs := w.map some ++ some q :: rest) (rest := rest)
    (s := s.toList) ?_ (spelled_allowed h)
  · rw [this, String.ofList_toList]
  · rw [show textGo (some q) false none none none [] (w.map some ++ some q :: rest) = _ from e]
    rcases hq with rfl | rfl <;> simp [textGo, Spot.isCdata, Spot.quote]

theorem lexText_cdata {s : String} {w : List Char} (h : Spelled .cdata s.toList w) (hw : Without "]]>" w)
    (rest : List Rune) :
    lexText none true (w.map some ++ some ']' :: some ']' :: some '>' :: rest) = some (s, rest) := by
  obtain ⟨b0, b1, e⟩ := textGo_spelled .cdata (fun _ h => by cases h) h
    (some ']' :: some ']' :: some '>' :: rest) none none [] (fun h => by cases h) (fun _ => open_of_without hw)
  have := lexText_of (q := none) (cd := true) (rs := w.map some ++ some ']' :: some ']' :: some '>' :: rest)
    (rest := rest) (s := s.toList) ?_ (spelled_allowed h)
  · rw [this, String.ofList_toList]
  · rw [show textGo none true none none none [] (w.map some ++ some ']' :: some ']' :: some '>' :: rest) = _ from e]
    simp [textGo, Spot.isCdata, Spot.quote]

/-! ## Tags -/

theorem blank_space {b : List Char} (h : Blank b) : ∀ r ∈ b.map some, isXmlSpace r = true := by
  intro r hr
  obtain ⟨c, hc, rfl⟩ := List.mem_map.1 hr
  rcases h c hc with rfl | rfl | rfl | rfl <;> rfl

theorem blank_drop {b : List Char} (h : Blank b) {r : Rune} (hr : isXmlSpace r = false) (l : List Rune) :
    (b.map some ++ r :: l).dropWhile isXmlSpace = r :: l := dropWhile_stop _ (blank_space h) hr

/-- After a name comes white space or another character that is in no name. -/
theorem blank_next {b : List Char} (h : Blank b) {r : Rune} (hr : inName r = false) (l : List Rune) :
    ∃ r' l', b.map some ++ r :: l = r' :: l' ∧ inName r' = false := by
  cases b with
  | nil => exact ⟨r, l, rfl, hr⟩
  | cons c b =>
    refine ⟨some c, _, rfl, ?_⟩
    rcases h c (by simp) with rfl | rfl | rfl | rfl <;> rfl

theorem lexAttr_form {a : Attr} {b1 b2 v : List Char} {quote : Char} (h : nameOk a.name = true) (h1 : Blank b1)
    (h2 : Blank b2) (hq : quote = '"' ∨ quote = '\'') (hv : Spelled (.value quote) a.val.toList v)
    (rest : List Rune) :
    lexAttr (a.name.chars.map some ++ (b1.map some ++ some '=' :: (b2.map some ++ some quote ::
      (v.map some ++ some quote :: rest)))) = some (a, rest) := by
  obtain ⟨r, l, e, hr⟩ := blank_next h1 (r := some '=') rfl (b2.map some ++ some quote ::
      (v.map some ++ some quote :: rest))
  unfold lexAttr
  rw [e, lexQName_chars h r hr, ← e]
  simp only
  rw [blank_drop h1 rfl]
  simp only
  rw [blank_drop h2 (by rcases hq with rfl | rfl <;> rfl)]
  have := lexText_value hq hv rest
  rcases hq with rfl | rfl <;> simp [this]

theorem attrs_length {as : List Attr} {w : List Char} (h : AttrForms as w) : as.length ≤ w.length := by
  induction h with
  | nil => simp
  | cons _ _ _ _ _ _ _ _ ih => simp only [List.length_cons, List.length_append]; omega

/-- The end of a start tag: whether it is an empty-element tag -/
def tagEnd : Bool → List Rune
  | true => [some '/', some '>']
  | false => [some '>']

theorem lexAttrs_form {as : List Attr} {w : List Char} (h : AttrForms as w) {b : List Char} (hb : Blank b)
    (e : Bool) (rest : List Rune) : ∀ (n : Nat) (pre : List Attr), as.length < n →
    lexAttrs n pre (w.map some ++ (b.map some ++ (tagEnd e ++ rest))) = some (pre ++ as, e, rest) := by
  induction h with
  | nil =>
    intro n pre hn
    cases n with
    | zero => omega
    | succ n =>
      rw [lexAttrs, List.map_nil, List.nil_append]
      cases e with
      | true =>
        rw [show tagEnd true ++ rest = some '/' :: some '>' :: rest from rfl, blank_drop hb rfl]; simp
      | false =>
        rw [show tagEnd false ++ rest = some '>' :: rest from rfl, blank_drop hb rfl]; simp
  | @cons a as b0 b1 b2 v w quote ha hb0 hb1 hb2 hb3 hq hv _ ih =>
    intro n pre hn
    cases n with
    | zero => omega
    | succ n =>
      obtain ⟨c, cs, h1, h2, _⟩ := qname_chars ha
      have hc := plain_alpha h2
      have key := lexAttr_form ha hb2 hb3 hq hv (w.map some ++ (b.map some ++ (tagEnd e ++ rest)))
      have h3 : isXmlSpace (some c) = false := by
        have a1 := plain_not hc (x := ' ') (by decide)
        have a2 := plain_not hc (x := '\r') (by decide)
        have a3 := plain_not hc (x := '\n') (by decide)
        have a4 := plain_not hc (x := '\t') (by decide)
        simp [isXmlSpace, a1, a2, a3, a4]
      have h4 : c ≠ '/' := plain_not hc (by decide)
      have h5 : c ≠ '>' := plain_not hc (by decide)
      have he : (b0 ++ a.name.chars ++ b1 ++ ['='] ++ b2 ++ [quote] ++ v ++ [quote] ++ w).map some ++
          (b.map some ++ (tagEnd e ++ rest)) = b0.map some ++ (a.name.chars.map some ++ (b1.map some ++
          some '=' :: (b2.map some ++ some quote :: (v.map some ++ some quote ::
            (w.map some ++ (b.map some ++ (tagEnd e ++ rest))))))) := by simp
      rw [he, lexAttrs]
      rw [h1] at key ⊢
      simp only [List.cons_append, List.map_cons] at key ⊢
      rw [blank_drop hb1 h3]
      split
      · rename_i h; cases h
      · rename_i h; injection h with h _; injection h with h; exact absurd h h4
      · rename_i h; injection h with h _; injection h with h; exact absurd h h4
      · rename_i h; injection h with h _; injection h with h; exact absurd h h5
      · rw [key]
        simp only
        rw [ih n _ (by simpa using hn)]
        simp

/-- What follows the name of a start tag -/
theorem attrs_next {as : List Attr} {w : List Char} (h : AttrForms as w) {b : List Char} (hb : Blank b)
    (e : Bool) (rest : List Rune) :
    ∃ r l, w.map some ++ (b.map some ++ (tagEnd e ++ rest)) = r :: l ∧ inName r = false := by
  cases h with
  | nil =>
    rw [List.map_nil, List.nil_append]
    cases e with
    | true => exact blank_next hb rfl _
    | false => exact blank_next hb rfl _
  | @cons a as b0 b1 b2 v w quote ha hb0 hb1 hb2 hb3 hq hv _ =>
    cases b0 with
    | nil => exact absurd rfl hb0
    | cons c b0 =>
      refine ⟨some c, _, rfl, ?_⟩
      rcases hb1 c (by simp) with rfl | rfl | rfl | rfl <;> rfl

theorem lexStart_form {q : QName} (hq : nameOk q = true) {as : List Attr} {w : List Char} (h : AttrForms as w)
    {b : List Char} (hb : Blank b) (e : Bool) (rest : List Rune) :
    lexStart (q.chars.map some ++ (w.map some ++ (b.map some ++ (tagEnd e ++ rest)))) =
      some (if e then [.start q as, .stop q] else [.start q as], rest) := by
  obtain ⟨r, l, he, hr⟩ := attrs_next h hb e rest
  unfold lexStart
  rw [he, lexQName_chars hq r hr, ← he]
  simp only
  have := attrs_length h
  rw [lexAttrs_form h hb e rest _ [] (by simp only [List.length_append, List.length_map]; omega)]
  cases e <;> simp

theorem lexTok_start {q : QName} (hq : nameOk q = true) {l : List Rune} {x : List Tok × List Rune}
    (h : lexStart (q.chars.map some ++ l) = some x) : lexTok (some '<' :: (q.chars.map some ++ l)) = some x := by
  obtain ⟨c, cs, h1, h2, _⟩ := qname_chars hq
  have hc := plain_alpha h2
  rw [h1] at h ⊢
  simp only [List.map_cons, List.cons_append] at h ⊢
  unfold lexTok
  split
  all_goals first
    | (rename_i h; injection h with _ h; injection h with h _; injection h with h
       exact absurd h (plain_not hc (by decide)))
    | skip
  · rename_i h'; injection h' with _ h'; subst h'
    exact h
  · rename_i h'; exact absurd rfl (h' _)

theorem lexEnd_form {q : QName} (hq : nameOk q = true) {b : List Char} (hb : Blank b) (rest : List Rune) :
    lexEnd (q.chars.map some ++ (b.map some ++ some '>' :: rest)) = some ([.stop q], rest) := by
  obtain ⟨r, l, he, hr⟩ := blank_next hb (r := some '>') rfl rest
  unfold lexEnd
  rw [he, lexQName_chars hq r hr, ← he]
  simp only
  rw [blank_drop hb rfl]
  rfl

/-! ## Comments -/

theorem Without.tail {k : String} {c : Char} {w : List Char} (h : Without k (c :: w)) : Without k w := by
  intro a b he
  exact h (c :: a) b (by rw [he]; rfl)

theorem lexComment_form : ∀ (v : List Char) (b0 b1 : Rune) (rest : List Rune),
    ¬ (b0 = some '-' ∧ b1 = some '-') → (b1 = some '-' → (v ++ ['-']).head? ≠ some '-') →
    Without "--" (v ++ ['-']) →
    lexComment b0 b1 (v.map some ++ some '-' :: some '-' :: some '>' :: rest) = some rest := by
  intro v
  induction v with
  | nil =>
    intro b0 b1 rest h1 h2 _
    have h3 : b1 ≠ some '-' := fun h => h2 h rfl
    simp [lexComment, h3]
  | cons c v ih =>
    intro b0 b1 rest h1 h2 h3
    rw [List.map_cons, List.cons_append, lexComment, if_neg h1]
    refine ih b1 (some c) rest ?_ ?_ (Without.tail h3)
    · rintro ⟨e1, e2⟩
      exact h2 e1 (by rw [Option.some.inj e2]; rfl)
    · intro e1 e2
      obtain rfl := Option.some.inj e1
      cases hv : v ++ ['-'] with
      | nil => simp at hv
      | cons d l =>
        rw [hv] at e2
        obtain rfl := Option.some.inj e2
        exact h3 [] l (by rw [List.cons_append, hv]; rfl)

/-! ## Processing instructions -/

theorem lexInstr_form : ∀ (v : List Char) (b0 : Rune) (acc rest : List Rune),
    (b0 = some '?' → v.head? ≠ some '>') → Without "?>" v →
    lexInstr b0 acc (v.map some ++ some '?' :: some '>' :: rest) = some (acc.reverse ++ v.map some, rest) := by
  intro v
  induction v with
  | nil => intro b0 acc rest _ _; simp [lexInstr]
  | cons c v ih =>
    intro b0 acc rest h1 h2
    rw [List.map_cons, List.cons_append, lexInstr, if_neg, ih (some c) _ rest ?_ h2.tail]
    · simp
    · intro e1 e2
      obtain rfl := Option.some.inj e1
      cases v with
      | nil => cases e2
      | cons d v =>
        obtain rfl := Option.some.inj e2
        exact h2 [] v rfl
    · rintro ⟨e1, e2⟩
      exact h1 e1 (by rw [Option.some.inj e2]; rfl)

theorem lexName_plain {t : String} (h : plainName t = true) (r : Rune) (hr : inName r = false) (rest : List Rune) :
    lexName (t.toList.map some ++ r :: rest) = some (t.toList, r :: rest) := by
  obtain ⟨c, cs, h1, h2, h3⟩ := plainName_cons h
  have hin : ∀ x ∈ t.toList.map some, inName x = true := by
    intro x hx
    obtain ⟨y, hy, rfl⟩ := List.mem_map.mp hx
    exact inName_plain (h3 y hy)
  have hn : isName t.toList = true := by
    rw [h1] at h3 ⊢
    unfold isName
    rw [Bool.and_eq_true, List.all_eq_true]
    exact ⟨isFirst_alpha h2, fun x hx => isSecond_plain (h3 x (List.mem_cons_of_mem _ hx))⟩
  unfold lexName
  rw [takeWhile_stop _ hin hr, dropWhile_stop _ hin hr]
  simp only [allChars_map, hn, if_true]

theorem drop_space (l : List Rune) : ∀ v : List Char, ∃ x v', v = x ++ v' ∧
    (v.map some ++ some '?' :: l).dropWhile isXmlSpace = v'.map some ++ some '?' :: l := by
  intro v
  induction v with
  | nil => exact ⟨[], [], rfl, rfl⟩
  | cons c v ih =>
    by_cases hc : isXmlSpace (some c) = true
    · obtain ⟨x, v', rfl, e⟩ := ih
      refine ⟨c :: x, v', rfl, ?_⟩
      rw [List.map_cons, List.cons_append, List.dropWhile_cons_of_pos hc, e]
    · refine ⟨[], c :: v, rfl, ?_⟩
      rw [List.map_cons, List.cons_append, List.dropWhile_cons_of_neg hc]

theorem Without.suffix {k : String} {x w : List Char} (h : Without k (x ++ w)) : Without k w := by
  intro a b he
  exact h (x ++ a) b (by rw [he]; simp)

theorem lexPI_form {t : String} (ht : Target t) {b v : List Char} (hb : Blank b) (hbv : b = [] → v = [])
    (hv : Without "?>" v) (rest : List Rune) :
    lexPI (t.toList.map some ++ (b.map some ++ (v.map some ++ some '?' :: some '>' :: rest))) =
      some ([.other], rest) := by
  have hnext : ∃ r l, b.map some ++ (v.map some ++ some '?' :: some '>' :: rest) = r :: l ∧ inName r = false := by
    cases b with
    | nil => rw [hbv rfl]; exact ⟨_, _, rfl, rfl⟩
    | cons c b =>
      refine ⟨some c, _, rfl, ?_⟩
      rcases hb c (by simp) with rfl | rfl | rfl | rfl <;> rfl
  obtain ⟨r, l, e, hr⟩ := hnext
  unfold lexPI
  rw [e, lexName_plain ht.1 r hr, ← e]
  simp only
  rw [List.dropWhile_append_of_pos (blank_space hb)]
  obtain ⟨x, v', rfl, e'⟩ := drop_space (some '>' :: rest) v
  rw [e', lexInstr_form v' none [] rest (fun h => by cases h) hv.suffix]
  simp only
  rw [if_neg]
  rintro ⟨h, _⟩
  exact ht.2 (by rw [h]; decide)

/-! ## The XML declaration -/

theorem procInst_blank {p : Char} {ps : List Char} (hp : p ≠ ' ' ∧ p ≠ '\t' ∧ p ≠ '\n' ∧ p ≠ '\r') :
    ∀ {b : List Char}, Blank b → ∀ l : List Rune, procInst (p :: ps) (b.map some ++ l) = procInst (p :: ps) l := by
  intro b
  induction b with
  | nil => intro _ l; rfl
  | cons c b ih =>
    intro hb l
    have hc : p ≠ c := by
      rcases hb c (by simp) with rfl | rfl | rfl | rfl
      · exact hp.1
      · exact hp.2.1
      · exact hp.2.2.1
      · exact hp.2.2.2
    rw [List.map_cons, List.cons_append, procInst]
    have : afterPrefix (p :: ps ++ ['=']) (some c :: (b.map some ++ l)) = none := by
      rw [List.cons_append, afterPrefix, if_neg hc]
    rw [this]
    exact ih (fun x hx => hb x (by simp [hx])) l

theorem afterPrefix_self (l : List Rune) : ∀ cs : List Char, afterPrefix cs (cs.map some ++ l) = some l := by
  intro cs
  induction cs with
  | nil => cases l <;> rfl
  | cons c cs ih => rw [List.map_cons, List.cons_append, afterPrefix, if_pos rfl, ih]

theorem procInst_hit (p : Char) (ps : List Char) {quote : Char} (hq : quote = '"' ∨ quote = '\'') {v : List Char}
    (hv : quote ∉ v) (l : List Rune) :
    procInst (p :: ps) ((p :: ps).map some ++ (some '=' :: some quote :: (v.map some ++ (some quote :: l)))) =
      v.map some := by
  have hv' : ∀ x ∈ v.map some, (x != some quote) = true := by
    intro x hx
    obtain ⟨y, hy, rfl⟩ := List.mem_map.1 hx
    have : y ≠ quote := fun h => hv (h ▸ hy)
    simp [this]
  have ht : (v.map some ++ (some quote :: l)).takeWhile (· != some quote) = v.map some :=
    takeWhile_stop _ hv' (by simp)
  have ha := afterPrefix_self (some quote :: (v.map some ++ (some quote :: l))) (p :: ps ++ ['='])
  rw [List.map_append, List.append_assoc] at ha
  rw [List.map_cons, List.cons_append] at ha ⊢
  rw [procInst]
  rw [show afterPrefix (p :: ps ++ ['=']) (some p :: (ps.map some ++ (some '=' :: some quote :: (v.map some ++
    (some quote :: l))))) = _ from ha]
  rcases hq with rfl | rfl
  · simp only
    rw [if_pos (by simp), ht]
  · simp only
    rw [if_pos (by simp), ht]

theorem utf8Name_chars {v : List Char} (h : Utf8Name v) : '?' ∉ v ∧ '"' ∉ v ∧ '\'' ∉ v := by
  have key : ∀ c ∈ v, c.toLower ∈ "utf-8".toList := by
    intro c hc
    unfold Utf8Name at h
    rw [← h]
    exact List.mem_map.2 ⟨c, hc, rfl⟩
  refine ⟨fun h => ?_, fun h => ?_, fun h => ?_⟩ <;> have := key _ h <;> revert this <;> decide

theorem encoding_ok {w w' b' : List Char} (hw : DeclPart "encoding" Utf8Name w) (hw' : DeclPart "standalone" YesNo w')
    (hb' : Blank b') : (procInst "encoding".toList (w.map some ++ (w'.map some ++ b'.map some))).isEmpty = true ∨
      isUtf8Name (procInst "encoding".toList (w.map some ++ (w'.map some ++ b'.map some))) = true := by
  have sp : 'e' ≠ ' ' ∧ 'e' ≠ '\t' ∧ 'e' ≠ '\n' ∧ 'e' ≠ '\r' := by decide
  have skip : ∀ {b}, Blank b → ∀ l, procInst "encoding".toList (b.map some ++ l) = procInst "encoding".toList l :=
    fun hb l => procInst_blank sp hb l
  cases hw with
  | none =>
    left
    rw [List.map_nil, List.nil_append]
    cases hw' with
    | none =>
      have := skip hb' []
      rw [List.append_nil] at this
      rw [List.map_nil, List.nil_append, this]; rfl
    | @some b v quote h1 h2 h3 h4 =>
      have e : (b ++ "standalone".toList ++ ['=', quote] ++ v ++ [quote]).map some ++ b'.map some =
          b.map some ++ ("standalone".toList.map some ++ (some '=' :: some quote :: (v.map some ++
            (some quote :: b'.map some)))) := by simp
      have hb := skip hb' []
      rw [List.append_nil] at hb
      rw [e, skip h2]
      rcases h3 with rfl | rfl <;> rcases h4 with rfl | rfl <;>
        exact (congrArg List.isEmpty (show _ = procInst "encoding".toList (b'.map some) from rfl)).trans
          (by rw [hb]; rfl)
  | @some b v quote h1 h2 h3 h4 =>
    right
    have e : (b ++ "encoding".toList ++ ['=', quote] ++ v ++ [quote]).map some ++ (w'.map some ++ b'.map some) =
        b.map some ++ ("encoding".toList.map some ++ (some '=' :: some quote :: (v.map some ++
            (some quote :: (w'.map some ++ b'.map some))))) := by simp
    rw [e, skip h2]
    obtain ⟨_, q1, q2⟩ := utf8Name_chars h3
    have hq : quote ∉ v := by rcases h4 with rfl | rfl <;> assumption
    have hp := procInst_hit 'e' "ncoding".toList h4 hq (w'.map some ++ b'.map some)
    rw [show procInst "encoding".toList ("encoding".toList.map some ++ (some '=' :: some quote :: (v.map some ++
      (some quote :: (w'.map some ++ b'.map some))))) = _ from hp]
    unfold isUtf8Name
    rw [allChars_map]
    simpa [Utf8Name] using h3

theorem without_of_not_mem {v : List Char} (h : '?' ∉ v) : Without "?>" v := by
  intro a b he
  apply h
  rw [he]
  simp

theorem declPart_chars {name : String} {ok : List Char → Prop} {w : List Char} (h : DeclPart name ok w)
    (hn : '?' ∉ name.toList) (ho : ∀ v, ok v → '?' ∉ v) : '?' ∉ w := by
  cases h with
  | none => simp
  | some h1 h2 h3 h4 =>
    simp only [List.mem_append, not_or, List.mem_cons, List.not_mem_nil, or_false]
    have hb : ∀ {b}, Blank b → '?' ∉ b := by
      intro b hb h
      have := hb _ h
      revert this; decide
    refine ⟨⟨⟨⟨hb h2, hn⟩, by decide, ?_⟩, ho _ h3⟩, ?_⟩ <;> rcases h4 with rfl | rfl <;> decide

/-- What follows the version in an XML declaration -/
theorem decl_ok {w w' b' : List Char} {quote : Char} (hq : quote = '"' ∨ quote = '\'')
    (hw : DeclPart "encoding" Utf8Name w) (hw' : DeclPart "standalone" YesNo w') (hb' : Blank b') :
    xmlDeclOk ("version".toList.map some ++ (some '=' :: some quote :: ("1.0".toList.map some ++ (some quote ::
      (w.map some ++ (w'.map some ++ b'.map some)))))) = true := by
  have hver := procInst_hit 'v' "ersion".toList hq (v := "1.0".toList) (by rcases hq with rfl | rfl <;> decide)
    (w.map some ++ (w'.map some ++ b'.map some))
  have henc : procInst "encoding".toList ("version".toList.map some ++ (some '=' :: some quote ::
      ("1.0".toList.map some ++ (some quote :: (w.map some ++ (w'.map some ++ b'.map some)))))) =
      procInst "encoding".toList (w.map some ++ (w'.map some ++ b'.map some)) := by
    rcases hq with rfl | rfl <;> rfl
  unfold xmlDeclOk
  rw [henc, show procInst "version".toList ("version".toList.map some ++ (some '=' :: some quote ::
      ("1.0".toList.map some ++ (some quote :: (w.map some ++ (w'.map some ++ b'.map some)))))) = _ from hver]
  have h1 : ("1.0".toList.map some == "1.0".toList.map some) = true := by decide
  simp only [h1, Bool.or_true, Bool.true_and, Bool.or_eq_true]
  exact encoding_ok hw hw' hb'

theorem lexPI_decl {b b' w w' : List Char} {quote : Char} (hb : b ≠ []) (hb1 : Blank b)
    (hq : quote = '"' ∨ quote = '\'') (hw : DeclPart "encoding" Utf8Name w) (hw' : DeclPart "standalone" YesNo w')
    (hb' : Blank b') (rest : List Rune) :
    lexPI ("xml".toList.map some ++ (b.map some ++ (("version".toList ++ ('=' :: quote :: ("1.0".toList ++ (quote ::
      (w ++ (w' ++ b')))))).map some ++ some '?' :: some '>' :: rest))) = some ([.other], rest) := by
  have hv : '?' ∉ "version".toList ++ ('=' :: quote :: ("1.0".toList ++ (quote :: (w ++ (w' ++ b'))))) := by
    have h1 := declPart_chars hw (by decide) (fun v hv => (utf8Name_chars hv).1)
    have h2 := declPart_chars hw' (by decide) (fun v hv => by rcases hv with rfl | rfl <;> decide)
    have h3 : '?' ∉ b' := by
      intro h
      have := hb' _ h
      revert this; decide
    have h4 : '?' ≠ quote := by rcases hq with rfl | rfl <;> decide
    have h5 : '?' ∉ "version".toList := by decide
    have h6 : '?' ∉ "1.0".toList := by decide
    have h7 : '?' ≠ '=' := by decide
    intro h
    rcases List.mem_append.1 h with h | h
    · exact h5 h
    rcases List.mem_cons.1 h with h | h
    · exact h7 h
    rcases List.mem_cons.1 h with h | h
    · exact h4 h
    rcases List.mem_append.1 h with h | h
    · exact h6 h
    rcases List.mem_cons.1 h with h | h
    · exact h4 h
    rcases List.mem_append.1 h with h | h
    · exact h1 h
    rcases List.mem_append.1 h with h | h
    · exact h2 h
    · exact h3 h
  have hok := decl_ok hq hw hw' hb'
  obtain ⟨d, hd, hd'⟩ : ∃ d, "version".toList ++ ('=' :: quote :: ("1.0".toList ++ (quote :: (w ++ (w' ++ b'))))) =
      'v' :: d ∧ xmlDeclOk (('v' :: d).map some) = true := by
    refine ⟨"ersion".toList ++ ('=' :: quote :: ("1.0".toList ++ (quote :: (w ++ (w' ++ b'))))), rfl, ?_⟩
    rw [← hok]
    congr 1
    simp only [List.map_append, List.map_cons]
    rfl
  rw [hd] at hv ⊢
  obtain ⟨c, b0, rfl⟩ : ∃ c b0, b = c :: b0 := by
    cases b with
    | nil => exact absurd rfl hb
    | cons c b => exact ⟨c, b, rfl⟩
  have hc : inName (some c) = false := by rcases hb1 c (by simp) with rfl | rfl | rfl | rfl <;> rfl
  unfold lexPI
  have hn := lexName_plain (t := "xml") (by decide) (some c) hc (b0.map some ++
    (('v' :: d).map some ++ some '?' :: some '>' :: rest))
  rw [List.map_cons, List.cons_append, hn]
  simp only
  rw [show (some c :: (b0.map some ++ (('v' :: d).map some ++ some '?' :: some '>' :: rest))).dropWhile isXmlSpace =
      ('v' :: d).map some ++ some '?' :: some '>' :: rest from blank_drop hb1 (r := some 'v') rfl _]
  rw [lexInstr_form _ none [] rest (fun h => by cases h) (without_of_not_mem hv)]
  simp only
  rw [if_neg]
  rintro ⟨_, h⟩
  exact h hd'

/-! ## Document types -/

theorem lexDir_quoted (quote : Char) (d : Nat) (tail : List Rune) : ∀ v : List Char, quote ∉ v →
    lexDir (.plain (some quote) d) (v.map some ++ some quote :: tail) = lexDir (.plain none d) tail := by
  intro v
  induction v with
  | nil => intro _; simp [lexDir, dirHandle]
  | cons c v ih =>
    intro h
    have hc : c ≠ quote := fun e => h (by simp [e])
    rw [List.map_cons, List.cons_append, lexDir, if_neg (by simp), dirHandle, if_pos (by simp), if_neg (by simp [hc])]
    exact ih (fun e => h (by simp [e]))

theorem lexDir_comment (d : Nat) (tail : List Rune) : ∀ (v : List Char) (b0 b1 : Rune),
    (b0 = some '-' → b1 = some '-' → v.head? ≠ some '>') →
    (b1 = some '-' → ∀ r, v ≠ '-' :: '>' :: r) → Without "-->" v →
    lexDir (.comment b0 b1 d) (v.map some ++ some '-' :: some '-' :: some '>' :: tail) = lexDir (.plain none d) tail := by
  intro v
  induction v with
  | nil => intro b0 b1 _ _ _; simp [lexDir]
  | cons c v ih =>
    intro b0 b1 h1 h2 h3
    rw [List.map_cons, List.cons_append, lexDir, if_neg]
    · refine ih b1 (some c) ?_ ?_ h3.tail
      · intro e1 e2 e3
        obtain rfl := Option.some.inj e2
        cases v with
        | nil => cases e3
        | cons x v => obtain rfl := Option.some.inj e3; exact h2 e1 v rfl
      · rintro e1 r rfl
        obtain rfl := Option.some.inj e1
        exact h3 [] r rfl
    · rintro ⟨e1, e2, e3⟩
      exact h1 e1 e2 (by rw [Option.some.inj e3]; rfl)

theorem lexDir_lt (d : Nat) : ∀ l : List Rune, (∀ r, l ≠ some '!' :: some '-' :: some '-' :: r) →
    lexDir (.lt 0 d) l = lexDir (.plain none (d + 1)) l := by
  have step : ∀ (r : Rune) (l : List Rune), lexDir (.plain none (d + 1)) (r :: l) =
      lexDir (dirHandle none (d + 1) r) l := by
    intro r l
    rw [lexDir, if_neg (by omega)]
  intro l h
  cases l with
  | nil => rfl
  | cons r l =>
    rw [step, lexDir]
    by_cases h1 : r = some '!'
    · subst h1
      rw [if_pos (by simp), if_neg (by decide)]
      show _ = lexDir (.plain none (d + 1)) l
      cases l with
      | nil => rfl
      | cons r l =>
        rw [step, lexDir]
        by_cases h2 : r = some '-'
        · subst h2
          rw [if_pos (by simp), if_neg (by decide)]
          show _ = lexDir (.plain none (d + 1)) l
          cases l with
          | nil => rfl
          | cons r l =>
            rw [step, lexDir, if_neg]
            intro h3
            have h3 : r = some '-' := h3
            subst h3
            exact h l rfl
        · rw [if_neg (by simpa using h2)]
    · rw [if_neg (by simpa using h1)]

theorem lexDir_form {w : List Char} (h : TypeDecl w) : ∀ (d : Nat) (tail : List Rune),
    lexDir (.plain none d) (w.map some ++ tail) = lexDir (.plain none d) tail := by
  induction h with
  | nil => intro d tail; rfl
  | @char c w h1 h2 h3 h4 _ ih =>
    intro d tail
    rw [List.map_cons, List.cons_append, lexDir, if_neg (by simp [h2])]
    have : dirHandle none d (some c) = .plain none d := by simp [dirHandle, h1, h2, h3, h4]
    rw [this, ih]
  | @quoted quote v w hq hv _ ih =>
    intro d tail
    have e : (quote :: (v ++ [quote] ++ w)).map some ++ tail = some quote :: (v.map some ++ some quote ::
      (w.map some ++ tail)) := by simp
    have : dirHandle none d (some quote) = .plain (some quote) d := by
      rcases hq with rfl | rfl <;> simp [dirHandle]
    rw [e, lexDir, if_neg (by rcases hq with rfl | rfl <;> simp), this, lexDir_quoted _ _ _ _ hv, ih]
  | @declaration v w hv _ _ ih1 ih2 =>
    intro d tail
    have e : ('<' :: (v ++ ['>'] ++ w)).map some ++ tail = some '<' :: (v.map some ++ some '>' ::
      (w.map some ++ tail)) := by simp
    rw [e, lexDir, if_neg (by simp)]
    rw [show dirHandle none d (some '<') = .lt 0 d from by simp [dirHandle]]
    rw [lexDir_lt, ih1, lexDir, if_neg (by simp)]
    · rw [show dirHandle none (d + 1) (some '>') = .plain none d from by simp [dirHandle], ih2]
    · intro r he
      match v, hv, he with
      | [], _, he => simp at he
      | [a], _, he => simp at he
      | [a, b], _, he => simp at he
      | a :: b :: c :: v, hv, he =>
        simp only [List.map_cons, List.cons_append, List.cons.injEq, Option.some.injEq] at he
        obtain ⟨rfl, rfl, rfl, _⟩ := he
        exact hv v rfl
  | @comment v w hv _ ih =>
    intro d tail
    have e : ("<!--".toList ++ v ++ "-->".toList ++ w).map some ++ tail = some '<' :: some '!' :: some '-' ::
      some '-' :: (v.map some ++ some '-' :: some '-' :: some '>' :: (w.map some ++ tail)) := by simp
    rw [e, lexDir, if_neg (by simp)]
    rw [show dirHandle none d (some '<') = .lt 0 d from by simp [dirHandle]]
    rw [lexDir, if_pos (by simp), if_neg (by decide), lexDir, if_pos (by simp), if_neg (by decide), lexDir,
      if_pos (by simp), if_pos (by decide), lexDir_comment _ _ _ _ _ (fun h => by cases h) (fun h => by cases h) hv, ih]

/-! ## Trees -/

theorem lexTok_misc {w : List Char} (h : Misc w) (rest : List Rune) :
    lexTok (w.map some ++ rest) = some ([.other], rest) := by
  cases h with
  | @comment v h =>
    have e : ("<!--".toList ++ v ++ "-->".toList).map some ++ rest = some '<' :: some '!' :: some '-' :: some '-' ::
      (v.map some ++ some '-' :: some '-' :: some '>' :: rest) := by simp
    rw [e, lexTok, lexComment_form _ _ _ _ (by simp) (fun h => by cases h) h]
  | @instruction target b v ht hb hb' hv =>
    have e : ("<?".toList ++ target.toList ++ b ++ v ++ "?>".toList).map some ++ rest = some '<' :: some '?' ::
      (target.toList.map some ++ (b.map some ++ (v.map some ++ some '?' :: some '>' :: rest))) := by simp
    rw [e, lexTok, lexPI_form ht hb' (fun h => absurd h hb) hv]
  | @bare target ht =>
    have e : ("<?".toList ++ target.toList ++ "?>".toList).map some ++ rest = some '<' :: some '?' ::
      (target.toList.map some ++ (([] : List Char).map some ++ (([] : List Char).map some ++ some '?' :: some '>' :: rest))) := by simp
    rw [e, lexTok, lexPI_form ht (fun _ h => by cases h) (fun _ => rfl)]
    intro a b h
    simp at h
  | @declaration b b' w w' quote h1 h2 h3 h4 h5 h6 =>
    have e : ("<?xml".toList ++ b ++ "version=".toList ++ [quote] ++ "1.0".toList ++ [quote] ++ w ++ w' ++ b' ++
        "?>".toList).map some ++ rest = some '<' :: some '?' :: ("xml".toList.map some ++ (b.map some ++
        (("version".toList ++ ('=' :: quote :: ("1.0".toList ++ (quote :: (w ++ (w' ++ b')))))).map some ++
          some '?' :: some '>' :: rest))) := by
      simp only [List.map_append, List.append_assoc, List.map_cons, List.cons_append, List.nil_append]
      rfl
    rw [e, lexTok, lexPI_decl h1 h2 h3 h4 h5 h6]
  | @documentType w h =>
    have e : ("<!DOCTYPE".toList ++ w ++ ['>']).map some ++ rest = some '<' :: some '!' :: some 'D' ::
      (("OCTYPE".toList ++ w).map some ++ some '>' :: rest) := by simp
    have ht : TypeDecl ("OCTYPE".toList ++ w) := by
      show TypeDecl ('O' :: 'C' :: 'T' :: 'Y' :: 'P' :: 'E' :: w)
      repeat' first | exact h | refine .char (by decide) (by decide) (by decide) (by decide) ?_
    rw [e, lexTok, lexDir_form ht, lexDir, if_pos (by simp)]
    all_goals simp

theorem misc_cons {w : List Char} (h : Misc w) : ∃ l, w = '<' :: l := by
  cases h <;> exact ⟨_, rfl⟩

theorem form_cons {n : Node} {w : List Char} (h : Form n w) : ∃ l, w = '<' :: l := by
  cases h with
  | elem => exact ⟨_, rfl⟩
  | empty => exact ⟨_, rfl⟩
  | cdata => exact ⟨_, rfl⟩
  | misc h => exact misc_cons h

theorem spelled_head {s w : List Char} (h : Spelled .between s w) : ∀ c l, w = c :: l → c ≠ '<' := by
  cases h with
  | nil => intro c l h; cases h
  | self _ _ h _ => intro c l e; cases e; exact h.1
  | reference _ _ h _ =>
    intro c l he
    obtain ⟨e, rfl, _⟩ := reference_entity h
    cases he
    decide
  | crlf _ => intro c l e; cases e; decide
  | cr _ _ => intro c l e; cases e; decide

mutual
theorem lex_form : ∀ {n : Node} {w : List Char}, Form n w → ∀ rest : List Rune,
    lexR (w.map some ++ rest) = n.toks ++ lexR rest
  | _, _, @Form.elem q as kids wa wk b b' hq ha hb hk hb', rest => by
    have e : (['<'] ++ q.chars ++ wa ++ b ++ ['>'] ++ wk ++ ['<', '/'] ++ q.chars ++ b' ++ ['>']).map some ++ rest =
        some '<' :: (q.chars.map some ++ (wa.map some ++ (b.map some ++ (tagEnd false ++ (wk.map some ++
          some '<' :: some '/' :: (q.chars.map some ++ (b'.map some ++ some '>' :: rest))))))) := by simp [tagEnd]
    rw [e, lexR_cons, lexTok_start hq (lexStart_form hq ha hb false _)]
    simp only
    rw [lex_forms hk _ (.inr ⟨_, rfl⟩), lexR_cons]
    rw [show lexTok (some '<' :: some '/' :: (q.chars.map some ++ (b'.map some ++ some '>' :: rest))) =
      some ([.stop q], rest) from lexEnd_form hq hb' rest]
    simp [Node.toks]
  | _, _, @Form.empty q as wa b hq ha hb, rest => by
    have e : (['<'] ++ q.chars ++ wa ++ b ++ ['/', '>']).map some ++ rest =
        some '<' :: (q.chars.map some ++ (wa.map some ++ (b.map some ++ (tagEnd true ++ rest)))) := by simp [tagEnd]
    rw [e, lexR_cons, lexTok_start hq (lexStart_form hq ha hb true _)]
    simp [Node.toks, toksL]
  | _, _, @Form.cdata s w hs hw, rest => by
    have e : ("<![CDATA[".toList ++ w ++ "]]>".toList).map some ++ rest = some '<' :: some '!' :: some '[' ::
      ("CDATA[".toList.map some ++ (w.map some ++ some ']' :: some ']' :: some '>' :: rest)) := by simp
    have ha : ∀ l, afterPrefix "CDATA[".toList ("CDATA[".toList.map some ++ l) = some l := fun l => rfl
    rw [e, lexR_cons, lexTok, ha]
    simp only
    rw [lexText_cdata hs hw]
    rfl
  | _, _, @Form.misc w h, rest => by
    obtain ⟨l, hl⟩ := misc_cons h
    have := lexTok_misc h rest
    rw [hl, List.map_cons, List.cons_append] at this ⊢
    rw [lexR_cons, this]
    rfl
theorem lex_forms : ∀ {ns : List Node} {w : List Char}, Forms ns w → ∀ rest : List Rune, TagNext rest →
    lexR (w.map some ++ rest) = toksL ns ++ lexR rest
  | _, _, .nil, rest, _ => rfl
  | _, _, @Forms.cons n ns w ws h1 h2, rest, hr => by
    rw [List.map_append, List.append_assoc, lex_form h1, lex_forms h2 rest hr, toksL, List.append_assoc]
  | _, _, @Forms.text s ns w ws h1 h2 h3 h4 h5, rest, hr => by
    have hn : TagNext (ws.map some ++ rest) := by
      rcases h4 with rfl | h4
      · exact hr
      · cases ws with
        | nil => cases h4
        | cons c ws => obtain rfl := Option.some.inj h4; exact .inr ⟨_, rfl⟩
    have key := lexText_between h1 h3 (ws.map some ++ rest) hn
    rw [List.map_append, List.append_assoc]
    obtain ⟨c, l, rfl⟩ : ∃ c l, w = c :: l := by
      cases w with
      | nil => exact absurd rfl h2
      | cons c l => exact ⟨c, l, rfl⟩
    have hc : c ≠ '<' := spelled_head h1 c l rfl
    rw [List.map_cons, List.cons_append] at key ⊢
    have ht : lexTok (some c :: (l.map some ++ (ws.map some ++ rest))) = some ([.chars s], ws.map some ++ rest) := by
      unfold lexTok
      split
      all_goals first
        | (rename_i h; injection h with h _; injection h with h; exact absurd h hc)
        | skip
      rw [key]
    rw [lexR_cons, ht]
    simp only
    rw [lex_forms h5 rest hr]
    rfl
end

/-- Reading a file, in whatever way it is written -/
theorem lex_file {ns : List Node} {w : List Char} (h : Forms ns w) : lex (utf8 w) = toksL ns := by
  unfold lex
  rw [runes_utf8]
  have := lex_forms h [] (.inl rfl)
  rw [List.append_nil] at this
  show lexR _ = _
  rw [this]
  show _ ++ [] = _
  rw [List.append_nil]

end Docx
