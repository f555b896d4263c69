import Verif.Types

/-!
# XML tokens and the decoder of `encoding/xml`

The code in `/repo` never looks at characters of the XML file: it calls `Token`, `DecodeElement`
and `Skip` of an `xml.Decoder`.  This file models these three at token level, with the decoder's
element stack and its end-of-file marks.

Simplifications: name spaces are not resolved (the code compares local names only, and the
prefixes are kept because end tags must repeat them); a lexical error is the token `bad`.
The lexer and the printer of XML text are in `Verif.XmlText`.
-/

namespace Docx

/-- A name as written: prefix (empty if there is none) and local part. -/
structure QName where
  pre : String
  loc : String
deriving DecidableEq, Repr, Inhabited

/-- An attribute as written. -/
structure Attr where
  name : QName
  val : String
deriving DecidableEq, Repr, Inhabited

/-- `xml.Token`: start and end tags (an empty-element tag is a start followed by an end), character
data, anything else (comments, processing instructions, directives), and text on which the lexer
reports an error. -/
inductive Tok where
  | start (q : QName) (as : List Attr)
  | stop (q : QName)
  | chars (s : String)
  | other
  | bad
deriving DecidableEq, Repr, Inhabited

/-- Entry of the decoder's stack: an open element or an end-of-file mark. -/
inductive StkEntry where
  | elem (q : QName)
  | mark
deriving DecidableEq, Repr, Inhabited

/-- `xml.Decoder`: the tokens not read yet, the stack, and whether a syntax error was met (it is
then reported for ever). -/
structure Dec where
  rest : List Tok
  stk : List StkEntry := []
  dead : Bool := false
deriving DecidableEq, Repr, Inhabited

/-- `(*xml.Decoder).Token` -/
def Dec.token (d : Dec) : Except Err Tok × Dec :=
  match d with
  | ⟨_, .mark :: _, _⟩ => (.error .eof, d)
  | ⟨_, _, true⟩ => (.error .syntax, d)
  | ⟨[], [], false⟩ => (.error .eof, d)
  | ⟨[], _ :: _, false⟩ => (.error .syntax, d)
  | ⟨.bad :: r, s, false⟩ => (.error .syntax, ⟨.bad :: r, s, true⟩)
  | ⟨.start q as :: r, s, false⟩ => (.ok (.start q as), ⟨r, .elem q :: s, false⟩)
  | ⟨.stop q :: r, .elem q' :: s, false⟩ =>
    if q = q' then (.ok (.stop q), ⟨r, s, false⟩) else (.error .syntax, ⟨r, s, true⟩)
  | ⟨.stop _ :: r, [], false⟩ => (.error .syntax, ⟨r, [], true⟩)
  | ⟨.chars c :: r, s, false⟩ => (.ok (.chars c), ⟨r, s, false⟩)
  | ⟨.other :: r, s, false⟩ => (.ok .other, ⟨r, s, false⟩)

/-- Result of a decoding function: the value decoded so far (kept also with an error, because some
callers go on after an error), the error, and the decoder afterwards. -/
structure Out (α : Type) where
  val : α
  err : Option Err
  dec : Dec
deriving DecidableEq, Repr

/-- `(*xml.Decoder).Skip`, with `n` the depth counter; the first argument bounds the number of
tokens (never reached, see `Verif.Lemmas.Xml`) -/
def skipN : Nat → Nat → Dec → Option Err × Dec
  | 0, _, d => (some .fuel, d)
  | f + 1, n, d =>
    match d.token with
    | (.error e, d') => (some e, d')
    | (.ok (.start _ _), d') => skipN f (n + 1) d'
    | (.ok (.stop _), d') => match n with
      | 0 => (none, d')
      | m + 1 => skipN f m d'
    | (.ok _, d') => skipN f n d'

/-- `(*xml.Decoder).Skip` -/
def Dec.skip (d : Dec) : Option Err × Dec := skipN (d.rest.length + 1) 0 d

/-- `pushEOF` of `encoding/xml`: put an end-of-file mark just below the innermost open element -/
def pushMark : List StkEntry → List StkEntry
  | [] => []
  | .elem q :: s => .elem q :: .mark :: s
  | .mark :: s => .mark :: pushMark s

/-- `pushEOF` -/
def Dec.pushEOF (d : Dec) : Dec := { d with stk := pushMark d.stk }

/-- `popEOF` of `encoding/xml`: drop the mark if it is on top -/
def Dec.popEOF (d : Dec) : Bool × Dec :=
  match d.stk with
  | .mark :: s => (true, { d with stk := s })
  | _ => (false, d)

/-- `(*xml.Decoder).DecodeElement` on a value whose type has an `UnmarshalXML` method `u`
(`unmarshalInterface`) -/
def decodeElement {α : Type} (u : Dec → Out α) (d : Dec) : Out α :=
  let o := u d.pushEOF
  match o.err with
  | some e => ⟨o.val, some e, o.dec.popEOF.2⟩
  | none => match o.dec.popEOF with
    | (true, d') => ⟨o.val, none, d'⟩
    | (false, d') => ⟨o.val, some .notConsumed, d'⟩

/-- `if err != nil && !strings.HasPrefix(err.Error(), "expected") { return err }`: what is left of
the error -/
def tolerate : Option Err → Option Err
  | some .expected => none
  | e => e

/-! ## The shapes of code in the `UnmarshalXML` methods -/

/-- The usual case of a child loop: `DecodeElement` into a value, give up unless the error starts
with "expected", store the value -/
def sub {α σ : Type} (u : Dec → Out α) (k : α → σ) (d : Dec) : Out σ :=
  let o := decodeElement u d
  ⟨k o.val, tolerate o.err, o.dec⟩

/-- `DecodeElement` giving up on any error -/
def subStrict {α σ : Type} (u : Dec → Out α) (k : α → σ) (d : Dec) : Out σ :=
  let o := decodeElement u d
  ⟨k o.val, o.err, o.dec⟩

/-- A case that reads only the start tag: its children, if any, are seen by the same loop -/
def flat {σ : Type} (s : σ) (e : Option Err := none) (d : Dec) : Out σ := ⟨s, e, d⟩

/-- A case that ends with `Skip` -/
def skipTo {σ : Type} (s : σ) (d : Dec) : Out σ :=
  let (e, d') := d.skip
  ⟨s, e, d'⟩

/-- The loop `for { t, err := d.Token(); ... }` of the `UnmarshalXML` methods: it ends without an
error at the mark, fails on any other error, hands start tags to `step` (local name and attributes)
and character data to `chars`, and ignores the rest.  The number bounds the iterations (never
reached). -/
def loopN {σ : Type} (step : σ → String → List Attr → Dec → Out σ) (chars : σ → String → σ) :
    Nat → σ → Dec → Out σ
  | 0, s, d => ⟨s, some .fuel, d⟩
  | f + 1, s, d =>
    match d.token with
    | (.error .eof, d') => ⟨s, none, d'⟩
    | (.error e, d') => ⟨s, some e, d'⟩
    | (.ok (.start q as), d') =>
      match step s q.loc as d' with
      | ⟨s', none, d''⟩ => loopN step chars f s' d''
      | ⟨s', some e, d''⟩ => ⟨s', some e, d''⟩
    | (.ok (.chars c), d') => loopN step chars f (chars s c) d'
    | (.ok _, d') => loopN step chars f s d'

/-- The loop, with a bound that is never reached -/
def loopC {σ : Type} (step : σ → String → List Attr → Dec → Out σ) (chars : σ → String → σ)
    (s : σ) (d : Dec) : Out σ :=
  loopN step chars (d.rest.length + 1) s d

/-- The loop of the types that ignore character data -/
def loop {σ : Type} (step : σ → String → List Attr → Dec → Out σ) (s : σ) (d : Dec) : Out σ :=
  loopC step (fun s _ => s) s d

/-- The loops `for _, attr := range start.Attr { switch attr.Name.Local {...} }`, which stop at the
first error -/
def attrs {σ : Type} (f : σ → String → String → σ × Option Err) : σ → List Attr → σ × Option Err
  | s, [] => (s, none)
  | s, a :: as =>
    match f s a.name.loc a.val with
    | (s', none) => attrs f s' as
    | (s', some e) => (s', some e)

/-- An `UnmarshalXML` that reads its attributes and then exactly one token, taken to be the end
element -/
def leaf {σ : Type} (f : σ → String → String → σ × Option Err) (s : σ) (as : List Attr) (d : Dec) :
    Out σ :=
  match attrs f s as with
  | (s', some e) => ⟨s', some e, d⟩
  | (s', none) => match d.token with
    | (.ok _, d') => ⟨s', none, d'⟩
    | (.error e, d') => ⟨s', some e, d'⟩

/-- An `UnmarshalXML` that reads its attributes and then loops over its children -/
def withAttrs {σ : Type} (f : σ → String → String → σ × Option Err)
    (body : σ → Dec → Out σ) (s : σ) (as : List Attr) (d : Dec) : Out σ :=
  match attrs f s as with
  | (s', some e) => ⟨s', some e, d⟩
  | (s', none) => body s' d

/-- structdoc.go:48-55 `getAtt` -/
def getAtt : List Attr → String → String
  | [], _ => ""
  | a :: as, n => if a.name.loc = n then a.val else getAtt as n

/-- `x, err = GetInt(v)` as the body of an attribute case -/
def intAttr [GoEnv] {σ : Type} (v : String) (k : Int64 → σ) : σ × Option Err :=
  let r := getInt v
  (k r.1, r.2)

/-- The same after `if v == "" { continue }` -/
def intAttrNE [GoEnv] {σ : Type} (s : σ) (v : String) (k : Int64 → σ) : σ × Option Err :=
  if v = "" then (s, none) else intAttr v k

/-- `v := getAtt(...); if v == "" { continue }; value.Val, err = GetInt(v); if err != nil {return
err}; x = &value` as a case of a child loop: `s` is kept if the attribute is missing or bad -/
def flatInt [GoEnv] {σ : Type} (s : σ) (v : String) (k : Int64 → σ) (d : Dec) : Out σ :=
  if v = "" then ⟨s, none, d⟩
  else match getInt v with
    | (n, none) => ⟨k n, none, d⟩
    | (_, some e) => ⟨s, some e, d⟩

/-! ## Reflective decoding of simple values (`encoding/xml` `unmarshal`) -/

/-- Read the character data of an element up to its end tag, skipping child elements -/
def reflTextN : Nat → String → Dec → Out String
  | 0, s, d => ⟨s, some .fuel, d⟩
  | f + 1, s, d =>
    match d.token with
    | (.error e, d') => ⟨s, some e, d'⟩
    | (.ok (.start _ _), d') =>
      match d'.skip with
      | (none, d'') => reflTextN f s d''
      | (some e, d'') => ⟨s, some e, d''⟩
    | (.ok (.stop _), d') => ⟨s, none, d'⟩
    | (.ok (.chars c), d') => reflTextN f (s ++ c) d'
    | (.ok _, d') => reflTextN f s d'

/-- `DecodeElement(&value, &tt)` for `var value string`; on an error the string stays empty -/
def reflString (d : Dec) : Out String :=
  match reflTextN (d.rest.length + 1) "" d with
  | ⟨s, none, d'⟩ => ⟨s, none, d'⟩
  | ⟨_, some e, d'⟩ => ⟨"", some e, d'⟩

/-- `strings.TrimSpace` on characters -/
def trimSpace (cs : List Char) : List Char :=
  ((cs.dropWhile isFmtSpace).reverse.dropWhile isFmtSpace).reverse

/-- `DecodeElement(&n, &tt)` for an `int64` field whose value was `old` -/
def reflInt (old : Int64) (d : Dec) : Out Int64 :=
  match reflTextN (d.rest.length + 1) "" d with
  | ⟨_, some e, d'⟩ => ⟨old, some e, d'⟩
  | ⟨s, none, d'⟩ =>
    if s = "" then ⟨0, none, d'⟩
    else match atoi? (String.ofList (trimSpace s.toList)) with
      | some n => ⟨n, none, d'⟩
      | none => ⟨old, some .strconv, d'⟩

/-! ## Trees -/

/-- A piece of well-formed XML -/
inductive Node where
  | elem (q : QName) (as : List Attr) (kids : List Node)
  | text (s : String)
  | other

mutual
/-- The tokens the decoder sees when it reads a piece of XML -/
def Node.toks : Node → List Tok
  | .elem q as kids => .start q as :: (toksL kids ++ [.stop q])
  | .text s => [.chars s]
  | .other => [.other]
/-- The tokens of a sequence of pieces -/
def toksL : List Node → List Tok
  | [] => []
  | n :: ns => n.toks ++ toksL ns
end

end Docx
