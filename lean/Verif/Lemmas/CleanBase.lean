import Verif.SpecText
import Verif.Lemmas.XmlParts
import Verif.Lemmas.XmlRec

/-!
# What is decoded from tokens that hold only characters XML allows

`okN`, `okL`, `okA`: the strings of a tree, of several trees, of attributes are such.
-/

namespace Docx

set_option linter.unusedSectionVars false

/-- All strings of the tree consist of characters XML allows. -/
def okN (n : Node) : Prop := ∀ s ∈ n.strings, xmlText s
/-- The same for several trees -/
def okL (ns : List Node) : Prop := ∀ s ∈ stringsL ns, xmlText s
/-- The same for attributes -/
def okA (as : List Attr) : Prop := ∀ a ∈ as, xmlText a.val

/-- The same for a token -/
def okTok : Tok → Prop
  | .start _ as => okA as
  | .chars c => xmlText c
  | _ => True

/-- The same for tokens -/
def okToks (ts : List Tok) : Prop := ∀ t ∈ ts, okTok t

theorem xmlText_nil : xmlText "" := by intro c hc; simp at hc

theorem xmlText_itoa (n : Int64) : xmlText (itoa n) := by
  intro c hc
  have h : c = '-' ∨ (48 ≤ c.toNat ∧ c.toNat ≤ 57) := by
    simp only [itoa, String.toList_ofList, intRep] at hc
    split at hc
    · rcases List.mem_cons.1 hc with h | h
      · exact .inl h
      · exact .inr (natRep_digits _ c h)
    · exact .inr (natRep_digits _ c hc)
  rcases h with h | h
  · subst h; decide
  · simp only [xmlChar]
    simp; omega

theorem xmlText_append {a b : String} (ha : xmlText a) (hb : xmlText b) : xmlText (a ++ b) := by
  intro c hc
  rw [String.toList_append] at hc
  rcases List.mem_append.1 hc with h | h
  · exact ha c h
  · exact hb c h

theorem okA_nil : okA [] ↔ True := by simp [okA]
theorem okA_append {a b : List Attr} : okA (a ++ b) ↔ okA a ∧ okA b := by
  simp only [okA, List.mem_append]
  exact ⟨fun h => ⟨fun x hx => h x (.inl hx), fun x hx => h x (.inr hx)⟩, fun h x hx => hx.elim (h.1 x) (h.2 x)⟩
theorem okA_cons {a : Attr} {b : List Attr} : okA (a :: b) ↔ xmlText a.val ∧ okA b := by simp [okA]
theorem okA_strA {p l v : String} : okA (strA p l v) ↔ xmlText v := by simp [okA, strA]
theorem okA_strO {p l v : String} : okA (strO p l v) ↔ xmlText v := by
  unfold strO; split
  · next h => subst h; simp [okA, xmlText_nil]
  · simp [okA]
theorem okA_intA {p l : String} {n : Int64} : okA (intA p l n) ↔ True := by
  simp [okA, intA, xmlText_itoa]
theorem okA_intO {p l : String} {n : Int64} : okA (intO p l n) ↔ True := by
  unfold intO; split <;> simp [okA, xmlText_itoa]

theorem okN_el {p l : String} {as : List Attr} {ks : List Node} : okN (el p l as ks) ↔ okA as ∧ okL ks := by
  simp only [okN, el, Node.strings, List.mem_append, List.mem_map, okA, okL]
  constructor
  · intro h
    exact ⟨fun a ha => h _ (.inl ⟨a, ha, rfl⟩), fun s hs => h s (.inr hs)⟩
  · rintro ⟨h1, h2⟩ s (⟨a, ha, rfl⟩ | hs)
    · exact h1 a ha
    · exact h2 s hs
theorem okN_text {s : String} : okN (.text s) ↔ xmlText s := by simp [okN, Node.strings]
theorem okL_nil : okL [] ↔ True := by simp [okL, stringsL]
theorem okL_cons {n : Node} {ns : List Node} : okL (n :: ns) ↔ okN n ∧ okL ns := by
  simp only [okL, okN, stringsL, List.mem_append]
  exact ⟨fun h => ⟨fun x hx => h x (.inl hx), fun x hx => h x (.inr hx)⟩, fun h x hx => hx.elim (h.1 x) (h.2 x)⟩
theorem okL_append {a b : List Node} : okL (a ++ b) ↔ okL a ∧ okL b := by
  induction a with
  | nil => simp [okL_nil]
  | cons n a ih => simp only [List.cons_append, okL_cons, ih, and_assoc]
theorem okL_map {α : Type} {f : α → Node} {l : List α} : okL (l.map f) ↔ ∀ x ∈ l, okN (f x) := by
  induction l with
  | nil => simp [okL_nil]
  | cons a l ih => simp [okL_cons, ih]
theorem okL_optN {α : Type} {f : α → Node} {o : Option α} : okL (optN f o) ↔ ∀ a, o = some a → okN (f a) := by
  cases o <;> simp [optN, okL_nil, okL_cons]
theorem okL_flagN {b : Bool} {p l : String} : okL (flagN b p l) ↔ True := by
  cases b <;> simp [flagN, okL_nil, okL_cons, okN_el, okA_nil]
theorem okL_valN {l : String} {o : Option String} : okL (valN l o) ↔ ∀ v, o = some v → xmlText v := by
  cases o <;> simp [valN, okL_nil, okL_cons, okN_el, okA_strA]
theorem okL_valO {l : String} {o : Option String} : okL (valO l o) ↔ ∀ v, o = some v → xmlText v := by
  cases o <;> simp [valO, okL_nil, okL_cons, okN_el, okA_strO]
theorem okL_valI {l : String} {o : Option Int64} : okL (valI l o) ↔ True := by
  cases o <;> simp [valI, okL_nil, okL_cons, okN_el, okA_intA]
theorem okL_textN {s : String} : okL (textN s) ↔ xmlText s := by
  unfold textN; split
  · next h => subst h; simp [okL_nil, xmlText_nil]
  · simp [okL_cons, okL_nil, okN_text]

theorem okToks_sfx {a b : List Tok} (h : a <:+ b) (hb : okToks b) : okToks a :=
  fun t ht => hb t (h.subset ht)

theorem token_okTok {d d' : Dec} {t : Tok} (h : d.token = (.ok t, d')) (hd : okToks d.rest) : okTok t := by
  rcases d with ⟨r, s, b⟩
  unfold Dec.token at h
  split at h <;> first
    | (simp at h; done)
    | skip
  all_goals first
    | (simp only [Prod.mk.injEq, Except.ok.injEq] at h; obtain ⟨rfl, rfl⟩ := h
       rename_i heq; cases heq; first | exact trivial | exact hd _ List.mem_cons_self)
    | (split at h <;> first
        | (simp at h; done)
        | (simp only [Prod.mk.injEq, Except.ok.injEq] at h; obtain ⟨rfl, rfl⟩ := h; exact trivial))

variable [GoEnv]

/-- The value decoded satisfies `P`, on every input with good tokens -/
def YC {α : Type} (P : α → Prop) (u : Dec → Out α) : Prop := ∀ d, okToks d.rest → P (u d).val

/-- A step of a loop keeps `P` -/
def SC {σ : Type} (P : σ → Prop) (step : σ → String → List Attr → Dec → Out σ) : Prop :=
  ∀ s l as d, P s → okA as → okToks d.rest → P (step s l as d).val

theorem loopN_C {σ : Type} {P : σ → Prop} {step : σ → String → List Attr → Dec → Out σ}
    {chars : σ → String → σ} (hg : StepGood 0 step) (h : SC P step)
    (hc : ∀ s c, P s → xmlText c → P (chars s c)) :
    ∀ (f : Nat) (s : σ) (d : Dec), P s → okToks d.rest → P (loopN step chars f s d).val := by
  intro f
  induction f with
  | zero => intro s d hs _; exact hs
  | succ f ih =>
    intro s d hs hd
    rw [loopN]
    rcases hk : d.token with ⟨t, d'⟩
    have hd' : okToks d'.rest := okToks_sfx (token_sfx' hk) hd
    cases t with
    | error e => cases e <;> exact hs
    | ok t =>
      have ht := token_okTok hk hd
      cases t with
      | start q as =>
        have := h s q.loc as d' hs ht hd'
        have hx := (hg s q.loc as d').1
        simp only
        rcases hst : step s q.loc as d' with ⟨s', e, d''⟩
        rw [hst] at this hx
        cases e with
        | none => exact ih s' d'' this (okToks_sfx hx hd')
        | some e => exact this
      | chars c => exact ih _ d' (hc s c hs ht) hd'
      | stop _ => exact ih s d' hs hd'
      | other => exact ih s d' hs hd'
      | bad => exact ih s d' hs hd'

theorem loop_C {σ : Type} {P : σ → Prop} {step : σ → String → List Attr → Dec → Out σ} {s : σ}
    (hg : StepGood 0 step) (h : SC P step) (hs : P s) : YC P (loop step s) :=
  fun d hd => loopN_C hg h (fun _ _ h _ => h) _ s d hs hd

theorem decodeElement_C {α : Type} {P : α → Prop} {u : Dec → Out α} (h : YC P u) : YC P (decodeElement u) := by
  intro d hd
  have := h d.pushEOF hd
  simp only [decodeElement]
  rcases ho : u d.pushEOF with ⟨v, e, d'⟩
  rw [ho] at this
  cases e with
  | some e => exact this
  | none =>
    rcases d'.popEOF with ⟨b, d''⟩
    cases b <;> exact this

theorem sub_C {α σ : Type} {P : α → Prop} {Q : σ → Prop} {u : Dec → Out α} {d : Dec} {k : α → σ} (h : YC P u)
    (hd : okToks d.rest) (hk : ∀ v, P v → Q (k v)) : Q (sub u k d).val :=
  hk _ (decodeElement_C h d hd)

theorem subStrict_C {α σ : Type} {P : α → Prop} {Q : σ → Prop} {u : Dec → Out α} {d : Dec} {k : α → σ}
    (h : YC P u) (hd : okToks d.rest) (hk : ∀ v, P v → Q (k v)) : Q (subStrict u k d).val :=
  hk _ (decodeElement_C h d hd)

theorem any_C {α : Type} (u : Dec → Out α) : YC (fun _ => True) u := fun _ _ => trivial

theorem attrs_C {σ : Type} {P : σ → Prop} {f : σ → String → String → σ × Option Err}
    (hf : ∀ s l v, P s → xmlText v → P (f s l v).1) :
    ∀ (as : List Attr) (s : σ), okA as → P s → P (attrs f s as).1 := by
  intro as
  induction as with
  | nil => intro s _ hs; exact hs
  | cons a as ih =>
    intro s ha hs
    have := hf s a.name.loc a.val hs (okA_cons.1 ha).1
    rw [attrs]
    rcases hr : f s a.name.loc a.val with ⟨s', e⟩
    rw [hr] at this
    cases e with
    | none => exact ih s' (okA_cons.1 ha).2 this
    | some e => exact this

theorem leaf_C {σ : Type} {P : σ → Prop} {f : σ → String → String → σ × Option Err} {s : σ} {as : List Attr}
    (ha : okA as) (hf : ∀ s l v, P s → xmlText v → P (f s l v).1) (hs : P s) : YC P (leaf f s as) := by
  intro d hd
  have h := attrs_C hf as s ha hs
  simp only [leaf]
  rcases hr : attrs f s as with ⟨s', e⟩
  rw [hr] at h
  cases e with
  | some e => exact h
  | none =>
    simp only
    rcases d.token with ⟨t, d'⟩
    cases t <;> exact h

theorem withAttrs_C {σ : Type} {P : σ → Prop} {f : σ → String → String → σ × Option Err}
    {body : σ → Dec → Out σ} {s : σ} {as : List Attr} (ha : okA as)
    (hf : ∀ s l v, P s → xmlText v → P (f s l v).1) (hs : P s) (hb : ∀ s, P s → YC P (body s)) :
    YC P (withAttrs f body s as) := by
  intro d hd
  have h := attrs_C hf as s ha hs
  simp only [withAttrs]
  rcases hr : attrs f s as with ⟨s', e⟩
  rw [hr] at h
  cases e with
  | none => exact hb s' h d hd
  | some e => exact h

theorem flatInt_C {σ : Type} {Q : σ → Prop} {s : σ} {v : String} {k : Int64 → σ} {d : Dec} (hs : Q s)
    (hk : ∀ n, Q (k n)) : Q (flatInt s v k d).val := by
  unfold flatInt; split
  · exact hs
  · split
    · exact hk _
    · exact hs

theorem flatAttrs_C {α σ : Type} {P : α → Prop} {Q : σ → Prop} {f : α → String → String → α × Option Err}
    {i : α} {as : List Attr} {k : α → σ} {d : Dec} (ha : okA as) (hi : P i)
    (hf : ∀ s l v, P s → xmlText v → P (f s l v).1) (hk : ∀ v, P v → Q (k v)) :
    Q (flatAttrs f i as k d).val := hk _ (attrs_C hf as i ha hi)

theorem flatAttrsV_C {α σ : Type} {P : α → Prop} {Q : σ → Prop} {s : σ} {f : α → String → String → α × Option Err}
    {i : α} {as : List Attr} {k : α → σ} {d : Dec} (hs : Q s) (ha : okA as) (hi : P i)
    (hf : ∀ s l v, P s → xmlText v → P (f s l v).1) (hk : ∀ v, P v → Q (k v)) :
    Q (flatAttrsV s f i as k d).val := by
  have h := attrs_C hf as i ha hi
  unfold flatAttrsV
  rcases hr : attrs f i as with ⟨s', e⟩
  rw [hr] at h
  cases e with
  | none => exact hk _ h
  | some e => exact hs

theorem getAtt_C {as : List Attr} (ha : okA as) (n : String) : xmlText (getAtt as n) := by
  induction as with
  | nil => exact xmlText_nil
  | cons a as ih =>
    rw [getAtt]
    split
    · exact (okA_cons.1 ha).1
    · exact ih (okA_cons.1 ha).2

theorem reflTextN_C : ∀ (f : Nat) (s : String) (d : Dec), xmlText s → okToks d.rest →
    xmlText (reflTextN f s d).val := by
  intro f
  induction f with
  | zero => intro s d hs _; exact hs
  | succ f ih =>
    intro s d hs hd
    rw [reflTextN]
    rcases hk : d.token with ⟨t, d'⟩
    have hd' : okToks d'.rest := okToks_sfx (token_sfx' hk) hd
    cases t with
    | error e => exact hs
    | ok t =>
      have ht := token_okTok hk hd
      cases t with
      | start q as =>
        simp only
        have hx := skip_sfx d'
        rcases hsk : d'.skip with ⟨e, d''⟩
        rw [hsk] at hx
        cases e with
        | none => exact ih s d'' hs (okToks_sfx hx hd')
        | some e => exact hs
      | chars c => exact ih _ d' (xmlText_append hs ht) hd'
      | stop _ => exact hs
      | other => exact ih s d' hs hd'
      | bad => exact ih s d' hs hd'

theorem reflString_C : YC xmlText reflString := by
  intro d hd
  have h := reflTextN_C (d.rest.length + 1) "" d xmlText_nil hd
  unfold reflString
  rcases hr : reflTextN (d.rest.length + 1) "" d with ⟨s, e, d'⟩
  rw [hr] at h
  cases e with
  | none => exact h
  | some e => exact xmlText_nil

theorem rootN_C {α : Type} {P : α → Prop} {u : List Attr → Dec → Out α} (h : ∀ as, okA as → YC P (u as))
    {s : α} (hs : P s) : ∀ (f : Nat) (d : Dec), okToks d.rest → P (rootN u s f d).val := by
  intro f
  induction f with
  | zero => intro d _; exact hs
  | succ f ih =>
    intro d hd
    rw [rootN]
    rcases hk : d.token with ⟨t, d'⟩
    have hd' : okToks d'.rest := okToks_sfx (token_sfx' hk) hd
    cases t with
    | error e => exact hs
    | ok t =>
      cases t with
      | start q as => exact h as (token_okTok hk hd) d' hd'
      | _ => exact ih d' hd'

theorem altN_C {parse : Run → String → List Attr → Dec → Out Parsed} {PR : Run → Prop} {PC : RChild → Prop}
    (h : ∀ r l as d, PR r → okA as → okToks d.rest →
      PR (parse r l as d).val.1 ∧ ∀ c, (parse r l as d).val.2 = some c → PC c) :
    ∀ (f : Nat) (r : Run) (d : Dec), PR r → okToks d.rest →
      PR (altN parse f r d).val.1 ∧ ∀ c, (altN parse f r d).val.2 = some c → PC c := by
  intro f
  induction f with
  | zero => intro r d hr _; exact ⟨hr, by intro c hc; cases hc⟩
  | succ f ih =>
    intro r d hr hd
    let G : Out Parsed → Prop := fun o => PR o.val.1 ∧ ∀ c, o.val.2 = some c → PC c
    have hn : ∀ e d, G ⟨(r, none), e, d⟩ :=
      fun e d => ⟨hr, by intro c hc; cases hc⟩
    have hnext : ∀ d' : Dec, okToks d'.rest → G (match d'.skip with
      | (none, d'') => altN parse f r d''
      | (some e, d'') => (⟨(r, none), some e, d''⟩ : Out Parsed)) := by
      intro d' hd'
      have hx := skip_sfx d'
      rcases hs : d'.skip with ⟨e, d''⟩
      rw [hs] at hx
      cases e with
      | none => exact ih r d'' hr (okToks_sfx hx hd')
      | some e => exact hn _ _
    change G (altN parse (f + 1) r d)
    rw [altN]
    rcases hk : d.token with ⟨t, d'⟩
    have hd' : okToks d'.rest := okToks_sfx (token_sfx' hk) hd
    cases t with
    | error e => cases e <;> exact hn _ _
    | ok t =>
      cases t with
      | start q as =>
        simp only
        split
        · rcases hk' : d'.token with ⟨t, d''⟩
          cases t with
          | error e => exact hn _ _
          | ok t =>
            cases t with
            | start q2 as2 =>
              exact h r _ _ _ hr (token_okTok hk' hd') (okToks_sfx (token_sfx' hk') hd')
            | _ => exact hn _ _
        · exact hnext d' hd'
      | stop q =>
        simp only
        split
        · exact hn _ _
        · exact hnext d' hd'
      | _ => exact hnext d' hd'

/-- Rewrite what is known about a tree to what is known about its strings -/
macro "ok_simp" "[" ms:Lean.Parser.Tactic.simpLemma,* "]" : tactic =>
  `(tactic| simp_all [okN_el, okN_text, okL_nil, okL_cons, okL_append, okL_map, okL_optN, okL_flagN, okL_valN,
      okL_valO, okL_valI, okL_textN, okA_nil, okA_append, okA_strA, okA_strO, okA_intA, okA_intO, xmlText_nil,
      xmlText_itoa, getAtt_C, $ms,*])

end Docx
