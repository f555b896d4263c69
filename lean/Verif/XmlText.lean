import Verif.Xml
import Verif.Doc

/-!
# XML text: what `encoding/xml` writes and how it reads characters

`pack.go:87-94` writes `xml.Header` and calls `Encode`; `unpack.go:80-102, 105-130` call `Decode` on a
file.  This file models the part of `encoding/xml` (Go 1.20) between characters and tokens: the printer
with its escaping, and the lexer (`rawToken` and the functions it calls, in strict mode, without
`CharsetReader`, without `Entity`).

Simplifications: strings of the model are valid UTF-8 (a Go string need not be); the line and column
numbers of errors are dropped, every lexical error is the token `bad`.
-/

namespace Docx

/-! ## Bytes and characters -/

/-- What the decoder sees at a place: a character or a byte that belongs to no valid UTF-8 sequence
(`utf8.DecodeRune` giving `RuneError` with size 1) -/
abbrev Rune := Option Char

/-- The UTF-8 bytes of a sequence of characters -/
def utf8 (cs : List Char) : Bytes := cs.flatMap String.utf8EncodeChar

/-- Repeated `utf8.DecodeRune`; the number is the number of bytes still to be passed over -/
def runesGo : Nat → Bytes → List Rune
  | _, [] => []
  | n + 1, _ :: bs => runesGo n bs
  | 0, b :: bs =>
    match (ByteArray.mk (b :: bs).toArray).utf8DecodeChar? 0 with
    | some c => some c :: runesGo (c.utf8Size - 1) bs
    | none => none :: runesGo 0 bs

/-- The characters of a file.  Go's lexer works on bytes and decodes names and texts afterwards; as
all its delimiters are ASCII, this is the same as decoding first. -/
def runes (bs : Bytes) : List Rune := runesGo 0 bs

/-! ## The printer -/

/-- `isInCharacterRange` of `encoding/xml`: the characters XML allows -/
def xmlChar (c : Char) : Bool :=
  let n := c.toNat
  n == 0x09 || n == 0x0A || n == 0x0D || (0x20 ≤ n && n ≤ 0xD7FF) || (0xE000 ≤ n && n ≤ 0xFFFD) ||
  (0x10000 ≤ n && n ≤ 0x10FFFF)

/-- One character in `escapeText` of `encoding/xml`, with `escapeNewline` -/
def escChar (c : Char) : List Char :=
  if c = '"' then "&#34;".toList
  else if c = '\'' then "&#39;".toList
  else if c = '&' then "&amp;".toList
  else if c = '<' then "&lt;".toList
  else if c = '>' then "&gt;".toList
  else if c = '\t' then "&#x9;".toList
  else if c = '\n' then "&#xA;".toList
  else if c = '\r' then "&#xD;".toList
  else if xmlChar c then [c]
  else ['\uFFFD']

/-- `EscapeText` and `EscapeString` of `encoding/xml` -/
def escape (s : String) : List Char := s.toList.flatMap escChar

/-- A name as it is written -/
def QName.chars (q : QName) : List Char :=
  if q.pre = "" then q.loc.toList else q.pre.toList ++ ':' :: q.loc.toList

/-- An attribute (`writeStart` of `encoding/xml`) -/
def Attr.chars (a : Attr) : List Char := ' ' :: (a.name.chars ++ '=' :: '"' :: (escape a.val ++ ['"']))

mutual
/-- A piece of XML as the encoder writes it: no empty-element tags, no line breaks (`writeStart`,
`writeEnd`; nothing in /repo is written as a comment) -/
def Node.chars : Node → List Char
  | .elem q as kids =>
    '<' :: (q.chars ++ as.flatMap Attr.chars ++ '>' :: (charsL kids ++ '<' :: '/' :: (q.chars ++ ['>'])))
  | .text s => escape s
  | .other => []
/-- Pieces in a row -/
def charsL : List Node → List Char
  | [] => []
  | n :: ns => n.chars ++ charsL ns
end

/-- `xml.Header` -/
def xmlHeader : String := "<?xml version=\"1.0\" encoding=\"UTF-8\"?>\n"

/-- pack.go:87-94 `marshaller.WriteTo`: the bytes of an XML part -/
def xmlBytes (n : Node) : Bytes := utf8 (xmlHeader.toList ++ n.chars)

/-! ## The lexer -/

/-- The bytes `space` of `encoding/xml` passes over -/
def isXmlSpace : Rune → Bool
  | some c => c == ' ' || c == '\r' || c == '\n' || c == '\t'
  | none => false

/-- `isNameByte` of `encoding/xml` -/
def isNameByte (c : Char) : Bool :=
  let n := c.toNat
  (65 ≤ n && n ≤ 90) || (97 ≤ n && n ≤ 122) || (48 ≤ n && n ≤ 57) || c == '_' || c == ':' || c == '.' ||
  c == '-'

/-- Does `readName` of `encoding/xml` go on at this place? -/
def inName : Rune → Bool
  | some c => 128 ≤ c.toNat || isNameByte c
  | none => true

/-- May this character begin a name (`first` table of `encoding/xml`)? -/
def isFirst [GoEnv] (c : Char) : Bool :=
  let n := c.toNat
  if 128 ≤ n then GoEnv.nameFirst c
  else (65 ≤ n && n ≤ 90) || (97 ≤ n && n ≤ 122) || c == '_' || c == ':'

/-- May this character go on a name (`first` or `second` table of `encoding/xml`)? -/
def isSecond [GoEnv] (c : Char) : Bool :=
  let n := c.toNat
  isFirst c || (if 128 ≤ n then GoEnv.nameSecond c else (48 ≤ n && n ≤ 57) || c == '.' || c == '-')

/-- All places hold characters -/
def allChars : List Rune → Option (List Char)
  | [] => some []
  | none :: _ => none
  | some c :: rs => match allChars rs with
    | some cs => some (c :: cs)
    | none => none

/-- `isName` of `encoding/xml` -/
def isName [GoEnv] : List Char → Bool
  | [] => false
  | c :: cs => isFirst c && cs.all isSecond

/-- `name` of `encoding/xml`: the name and what follows, which must not be the end of the file -/
def lexName [GoEnv] (rs : List Rune) : Option (List Char × List Rune) :=
  match rs.dropWhile inName with
  | [] => none
  | r :: rest => match allChars (rs.takeWhile inName) with
    | none => none
    | some cs => if isName cs then some (cs, r :: rest) else none

/-- `nsname` of `encoding/xml`: at most one colon, and a prefix only if both parts are not empty -/
def splitName (cs : List Char) : Option QName :=
  if 1 < cs.count ':' then none
  else
    let pre := cs.takeWhile (· != ':')
    let loc := (cs.dropWhile (· != ':')).drop 1
    if pre.isEmpty || loc.isEmpty then some ⟨"", String.ofList cs⟩
    else some ⟨String.ofList pre, String.ofList loc⟩

/-- `nsname` of `encoding/xml` -/
def lexQName [GoEnv] (rs : List Rune) : Option (QName × List Rune) :=
  match lexName rs with
  | none => none
  | some (cs, rest) => match splitName cs with
    | none => none
    | some q => some (q, rest)

/-- Value of a digit in base 10 or 16 -/
def digitIn (hex : Bool) (c : Char) : Option Nat :=
  let n := c.toNat
  if 48 ≤ n && n ≤ 57 then some (n - 48)
  else if hex && 97 ≤ n && n ≤ 102 then some (n - 87)
  else if hex && 65 ≤ n && n ≤ 70 then some (n - 55)
  else none

/-- `strconv.ParseUint` in base 10 or 16, without the bound of 64 bits -/
def numIn (hex : Bool) (acc : Nat) : List Char → Option Nat
  | [] => some acc
  | c :: cs => match digitIn hex c with
    | some d => numIn hex (acc * (if hex then 16 else 10) + d) cs
    | none => none

/-- `string(rune(n))` for a number up to `unicode.MaxRune`: U+FFFD for surrogates -/
def runeOf (n : Nat) : Char := if (0xD800 ≤ n && n ≤ 0xDFFF) then '\uFFFD' else Char.ofNat n

/-- The character an entity stands for, given what is between `&` and `;` -/
def entity : List Char → Option Char
  | '#' :: 'x' :: ds => if ds.isEmpty then none else match numIn true 0 ds with
    | some n => if n ≤ 0x10FFFF then some (runeOf n) else none
    | none => none
  | '#' :: ds => if ds.isEmpty then none else match numIn false 0 ds with
    | some n => if n ≤ 0x10FFFF then some (runeOf n) else none
    | none => none
  | cs =>
    if cs = "lt".toList then some '<'
    else if cs = "gt".toList then some '>'
    else if cs = "amp".toList then some '&'
    else if cs = "apos".toList then some '\''
    else if cs = "quot".toList then some '"'
    else none

/-- The loop of `text` of `encoding/xml`.  `quote` is the closing quote of an attribute value, `cdata`
tells whether we are in `<![CDATA[`; `ent` holds what was read of an entity (Go stops at the first
character that cannot belong to one, here the whole up to the semicolon is read and then refused); `b0`
and `b1` are the two places before; `acc` is the result, reversed.  Gives the result and what follows. -/
def textGo (quote : Option Char) (cdata : Bool) :
    Option (List Rune) → Rune → Rune → List Rune → List Rune → Option (List Rune × List Rune)
  | none, _, _, acc, [] => if cdata then none else some (acc.reverse, [])
  | some _, _, _, _, [] => none
  | some e, b0, b1, acc, r :: rs =>
    if r = some ';' then
      match allChars e.reverse with
      | none => none
      | some cs => match entity cs with
        | none => none
        | some c => textGo quote cdata none none none (some c :: acc) rs
    else textGo quote cdata (some (r :: e)) b0 b1 acc rs
  | none, b0, b1, acc, r :: rs =>
    if quote = none ∧ b0 = some ']' ∧ b1 = some ']' ∧ r = some '>' then
      if cdata then some ((acc.drop 2).reverse, rs) else none
    else if r = some '<' ∧ ¬ cdata then
      if quote = none then some (acc.reverse, r :: rs) else none
    else if quote.isSome ∧ r = quote then some (acc.reverse, rs)
    else if r = some '&' ∧ ¬ cdata then textGo quote cdata (some []) b0 b1 acc rs
    else if r = some '\r' then textGo quote cdata none b1 r (some '\n' :: acc) rs
    else if b1 = some '\r' ∧ r = some '\n' then textGo quote cdata none b1 r acc rs
    else textGo quote cdata none b1 r (r :: acc) rs

/-- `text` of `encoding/xml`: the loop, then the check that only allowed characters are there -/
def lexText (quote : Option Char) (cdata : Bool) (rs : List Rune) : Option (String × List Rune) :=
  match textGo quote cdata none none none [] rs with
  | none => none
  | some (t, rest) => match allChars t with
    | none => none
    | some cs => if cs.all xmlChar then some (String.ofList cs, rest) else none

/-- One attribute in `rawToken`: name, `=`, quoted value -/
def lexAttr [GoEnv] (rs : List Rune) : Option (Attr × List Rune) :=
  match lexQName rs with
  | none => none
  | some (q, rest) => match rest.dropWhile isXmlSpace with
    | some '=' :: rest => match rest.dropWhile isXmlSpace with
      | some '"' :: rest => match lexText (some '"') false rest with
        | some (v, rest) => some (⟨q, v⟩, rest)
        | none => none
      | some '\'' :: rest => match lexText (some '\'') false rest with
        | some (v, rest) => some (⟨q, v⟩, rest)
        | none => none
      | _ => none
    | _ => none

/-- The attributes and the end of a start tag: the attributes, whether it is an empty-element tag, and
what follows.  The number bounds the attributes (never reached). -/
def lexAttrs [GoEnv] : Nat → List Attr → List Rune → Option (List Attr × Bool × List Rune)
  | 0, _, _ => none
  | n + 1, as, rs =>
    match rs.dropWhile isXmlSpace with
    | [] => none
    | some '/' :: some '>' :: rest => some (as, true, rest)
    | some '/' :: _ => none
    | some '>' :: rest => some (as, false, rest)
    | rest => match lexAttr rest with
      | some (a, rest) => lexAttrs n (as ++ [a]) rest
      | none => none

/-- A start tag, after `<` -/
def lexStart [GoEnv] (rs : List Rune) : Option (List Tok × List Rune) :=
  match lexQName rs with
  | none => none
  | some (q, rest) => match lexAttrs (rest.length + 1) [] rest with
    | some (as, true, rest) => some ([.start q as, .stop q], rest)
    | some (as, false, rest) => some ([.start q as], rest)
    | none => none

/-- An end tag, after `</` -/
def lexEnd [GoEnv] (rs : List Rune) : Option (List Tok × List Rune) :=
  match lexQName rs with
  | none => none
  | some (q, rest) => match rest.dropWhile isXmlSpace with
    | some '>' :: rest => some ([.stop q], rest)
    | _ => none

/-- A comment, after `<!--`: no `--` in it -/
def lexComment : Rune → Rune → List Rune → Option (List Rune)
  | _, _, [] => none
  | b0, b1, r :: rs =>
    if b0 = some '-' ∧ b1 = some '-' then if r = some '>' then some rs else none
    else lexComment b1 r rs

/-- The inside of a processing instruction up to `?>` (reversed), and what follows -/
def lexInstr : Rune → List Rune → List Rune → Option (List Rune × List Rune)
  | _, _, [] => none
  | b0, acc, r :: rs =>
    if b0 = some '?' ∧ r = some '>' then some ((acc.drop 1).reverse, rs) else lexInstr r (r :: acc) rs

/-- Strip a prefix -/
def afterPrefix : List Char → List Rune → Option (List Rune)
  | [], rs => some rs
  | c :: cs, some d :: rs => if c = d then afterPrefix cs rs else none
  | _ :: _, _ => none

/-- `procInst` of `encoding/xml`: the quoted value after the first `param=`, the empty string if there is none -/
def procInst (param : List Char) : List Rune → List Rune
  | [] => []
  | r :: rs =>
    match afterPrefix (param ++ ['=']) (r :: rs) with
    | some (some '"' :: rest) => if rest.contains (some '"') then rest.takeWhile (· != some '"') else []
    | some (some '\'' :: rest) => if rest.contains (some '\'') then rest.takeWhile (· != some '\'') else []
    | some _ => []
    | none => procInst param rs

/-- `strings.EqualFold(enc, "utf-8")` -/
def isUtf8Name (rs : List Rune) : Bool :=
  match allChars rs with
  | some cs => cs.map Char.toLower == "utf-8".toList
  | none => false

/-- The checks on `<?xml ...?>` -/
def xmlDeclOk (data : List Rune) : Bool :=
  let ver := procInst "version".toList data
  let enc := procInst "encoding".toList data
  (ver.isEmpty || ver == "1.0".toList.map some) && (enc.isEmpty || isUtf8Name enc)

/-- A processing instruction, after `<?` -/
def lexPI [GoEnv] (rs : List Rune) : Option (List Tok × List Rune) :=
  match lexName rs with
  | none => none
  | some (target, rest) => match lexInstr none [] (rest.dropWhile isXmlSpace) with
    | none => none
    | some (data, rest) => if target = "xml".toList ∧ ¬ xmlDeclOk data then none else some ([.other], rest)

/-- Where we are in a directive -/
inductive DirSt where
  | plain (quote : Rune) (depth : Nat)
  | lt (matched : Nat) (depth : Nat)
  | comment (b0 b1 : Rune) (depth : Nat)

/-- `HandleB` in `rawToken`: one place of a directive, outside the look for `<!--` -/
def dirHandle (quote : Rune) (depth : Nat) (r : Rune) : DirSt :=
  if quote ≠ none then if r = quote then .plain none depth else .plain quote depth
  else if r = some '\'' ∨ r = some '"' then .plain r depth
  else if r = some '>' then .plain none (depth - 1)
  else if r = some '<' then .lt 0 depth
  else .plain none depth

/-- A directive such as `<!DOCTYPE ...>`, after its first character -/
def lexDir : DirSt → List Rune → Option (List Rune)
  | _, [] => none
  | .plain q d, r :: rs =>
    if q = none ∧ r = some '>' ∧ d = 0 then some rs else lexDir (dirHandle q d r) rs
  | .lt n d, r :: rs =>
    if r = (if n = 0 then some '!' else some '-') then
      if n = 2 then lexDir (.comment none none d) rs else lexDir (.lt (n + 1) d) rs
    else lexDir (dirHandle none (d + 1) r) rs
  | .comment b0 b1 d, r :: rs =>
    if b0 = some '-' ∧ b1 = some '-' ∧ r = some '>' then lexDir (.plain none d) rs
    else lexDir (.comment b1 r d) rs

/-- `rawToken` of `encoding/xml` on a file that goes on: the tokens (two for an empty-element tag) and
what follows; `none` is an error -/
def lexTok [GoEnv] : List Rune → Option (List Tok × List Rune)
  | some '<' :: some '/' :: rs => lexEnd rs
  | some '<' :: some '?' :: rs => lexPI rs
  | some '<' :: some '!' :: some '-' :: some '-' :: rs =>
    match lexComment none none rs with
    | some rest => some ([.other], rest)
    | none => none
  | some '<' :: some '!' :: some '-' :: _ => none
  | some '<' :: some '!' :: some '[' :: rs =>
    match afterPrefix "CDATA[".toList rs with
    | none => none
    | some rs => match lexText none true rs with
      | some (s, rest) => some ([.chars s], rest)
      | none => none
  | some '<' :: some '!' :: _ :: rs =>
    match lexDir (.plain none 0) rs with
    | some rest => some ([.other], rest)
    | none => none
  | some '<' :: rs => lexStart rs
  | rs => match lexText none false rs with
    | some (s, rest) => some ([.chars s], rest)
    | none => none

/-- All tokens up to the end of the file or the first error.  The number bounds the tokens (never
reached). -/
def lexN [GoEnv] : Nat → List Rune → List Tok
  | 0, _ => [.bad]
  | _ + 1, [] => []
  | n + 1, r :: rs =>
    match lexTok (r :: rs) with
    | none => [.bad]
    | some (ts, rest) => ts ++ lexN n rest

/-- The tokens of a file -/
def lex [GoEnv] (bs : Bytes) : List Tok :=
  let rs := runes bs
  lexN (rs.length + 1) rs

end Docx
