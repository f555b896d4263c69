/-!
# Go basics

Results, integers and number parsing, as far as `/repo` uses them.
-/

namespace Docx

/-- Errors that the code can meet.  Only their kind matters to the callers:
`eof` is `io.EOF`, `expected` is any error whose text starts with `"expected"` (the only one
reachable is the `"expected integer"` of `fmt.Sscanf`), `panic` is a run-time panic, and `fuel`
marks a model function that ran out of fuel (shown unreachable). -/
inductive Err where
  | eof
  | syntax
  | notConsumed
  | expected
  | strconv
  | scan
  | refNotFound
  | notExist
  | io
  | closed
  | zip
  | decode
  | panic
  | fuel
deriving DecidableEq, Repr, Inhabited

/-- Outcome of a Go call returning `(value, error)`; a panic is kept apart from an error. -/
inductive Res (α : Type _) where
  | ok (a : α)
  | err (e : Err)
  | panic
deriving Repr, DecidableEq

namespace Res
/-- Sequencing: the first error or panic wins. -/
@[inline] def bind {α β} (x : Res α) (f : α → Res β) : Res β :=
  match x with
  | ok a => f a
  | err e => err e
  | panic => panic

instance : Monad Res where
  pure := Res.ok
  bind := Res.bind

@[simp] theorem pure_eq {α} (a : α) : (pure a : Res α) = ok a := rfl
@[simp] theorem bind_ok {α β} (a : α) (f : α → Res β) : (ok a >>= f) = f a := rfl
@[simp] theorem bind_err {α β} (e : Err) (f : α → Res β) : (err e >>= f) = err e := rfl
@[simp] theorem bind_panic {α β} (f : α → Res β) : ((panic : Res α) >>= f) = panic := rfl
@[simp] theorem map_ok {α β} (a : α) (f : α → β) : (f <$> (ok a : Res α)) = ok (f a) := rfl
@[simp] theorem map_err {α β} (e : Err) (f : α → β) : (f <$> (err e : Res α)) = err e := rfl
@[simp] theorem map_panic {α β} (f : α → β) : (f <$> (panic : Res α)) = panic := rfl

/-- The call returned normally. -/
def isOk {α} : Res α → Bool
  | ok _ => true
  | _ => false

instance : LawfulMonad Res :=
  LawfulMonad.mk' (m := Res)
    (id_map := fun x => by cases x <;> rfl)
    (pure_bind := fun _ _ => rfl)
    (bind_assoc := fun x _ _ => by cases x <;> rfl)
end Res

/-! ## Decimal numbers -/

/-- The digit character of `d < 10`. -/
def digitChar (d : Nat) : Char := Char.ofNat (48 + d)

/-- Decimal digits of `n`, most significant first, with an explicit bound on the recursion. -/
def natRepF : Nat → Nat → List Char
  | 0, n => [digitChar (n % 10)]
  | f + 1, n => if n < 10 then [digitChar n] else natRepF f (n / 10) ++ [digitChar (n % 10)]

/-- Decimal digits of `n`. The bound `n` on the number of recursive steps is never reached. -/
def natRep (n : Nat) : List Char := natRepF n n

/-- `strconv.Itoa` on `Int` (list of characters). -/
def intRep (i : Int) : List Char :=
  if i < 0 then '-' :: natRep i.natAbs else natRep i.natAbs

/-- `strconv.Itoa` / `strconv.FormatInt(_, 10)`, also what `encoding/xml` writes for an integer. -/
def itoa (n : Int64) : String := String.ofList (intRep n.toInt)

/-- Value of one decimal digit. -/
def digitVal? (c : Char) : Option Nat :=
  if 48 ≤ c.toNat ∧ c.toNat ≤ 57 then some (c.toNat - 48) else none

/-- Value of a list of decimal digits, `none` if some character is no digit. -/
def digitsVal? (acc : Nat) : List Char → Option Nat
  | [] => some acc
  | c :: cs => match digitVal? c with
    | some d => digitsVal? (acc * 10 + d) cs
    | none => none

/-- `strconv.ParseUint(s, 10, 64)` : `none` on any error (syntax or range). -/
def parseUint? (s : String) : Option UInt64 :=
  match s.toList with
  | [] => none
  | cs => match digitsVal? 0 cs with
    | some n => if n < 2 ^ 64 then some (UInt64.ofNat n) else none
    | none => none

/-- Signed value in range of 64 bits. -/
def inRange (i : Int) : Bool := decide (-(2 ^ 63) ≤ i ∧ i < 2 ^ 63)

/-- Parse an unsigned digit string (non empty). -/
def parseDigits? (cs : List Char) : Option Nat :=
  match cs with
  | [] => none
  | cs => digitsVal? 0 cs

/-- `strconv.Atoi(s)` / `strconv.ParseInt(s, 10, 64)` on a 64-bit platform:
optional sign, at least one digit, value in range; `none` on any error. -/
def atoi? (s : String) : Option Int64 :=
  let signed (neg : Bool) (cs : List Char) : Option Int64 :=
    match parseDigits? cs with
    | none => none
    | some n =>
      let i : Int := if neg then -(n : Int) else n
      if inRange i then some (Int64.ofInt i) else none
  match s.toList with
  | '-' :: cs => signed true cs
  | '+' :: cs => signed false cs
  | cs => signed false cs

/-- Library functions outside `/repo` whose result the model leaves open.
Every theorem holds for all of them. -/
class GoEnv where
  /-- `strconv.ParseFloat(s, 64)` followed by the conversion to `int64`; `none` on error. -/
  parseFloat : String → Option Int64
  /-- `unicode.Is(first, r)` of `encoding/xml` for the characters above 127: may `r` begin a name? -/
  nameFirst : Char → Bool
  /-- `unicode.Is(second, r)` of `encoding/xml` for the characters above 127: may `r` go on a name,
  although it cannot begin one? -/
  nameSecond : Char → Bool

/-- `unicode.IsSpace`-like test used by `fmt` when it skips blanks before `%d`
(`\n` is handled apart). -/
def isFmtSpace (c : Char) : Bool :=
  let n := c.toNat
  (9 ≤ n && n ≤ 13) || n == 32 || n == 0x85 || n == 0xa0 || n == 0x1680 ||
  (0x2000 ≤ n && n ≤ 0x200a) || n == 0x2028 || n == 0x2029 || n == 0x202f || n == 0x205f ||
  n == 0x3000

/-- Longest prefix of digits. -/
def takeDigits : List Char → List Char
  | [] => []
  | c :: cs => if (digitVal? c).isSome then c :: takeDigits cs else []

/-- The number part of `fmt.Sscanf(s, "%d", &v)` after blanks. -/
def sscanNum (neg : Bool) (cs : List Char) : Except Err Int64 :=
  match cs with
  | [] => .error .eof
  | _ => match parseDigits? (takeDigits cs) with
    | none => .error .expected
    | some n =>
      let i : Int := if neg then -(n : Int) else n
      if inRange i then .ok (Int64.ofInt i) else .error .strconv

/-- `fmt.Sscanf(s, "%d", &v)`: skip blanks, optional sign, digit prefix, rest ignored. -/
def sscanD : List Char → Except Err Int64
  | [] => .error .eof
  | c :: cs =>
    if c = '\n' then .error .scan
    else if isFmtSpace c then sscanD cs
    else if c = '-' then sscanNum true cs
    else if c = '+' then sscanNum false cs
    else sscanNum false (c :: cs)

/-- What `strconv.Atoi(s)` returns together with an error: the nearest 64-bit number if the number is out of
range, 0 if there is none. -/
def atoiFail (s : String) : Int64 :=
  let signed (v : Int64) (cs : List Char) : Int64 := if (parseDigits? cs).isSome then v else 0
  match s.toList with
  | '-' :: cs => signed Int64.minValue cs
  | '+' :: cs => signed Int64.maxValue cs
  | cs => signed Int64.maxValue cs

/-- helper.go:45-56 `GetInt64` and helper.go:59-70 `GetInt` (the same function on a 64-bit
platform).  The value returned with an error is the one left by `ParseInt`. -/
def getInt [GoEnv] (s : String) : Int64 × Option Err :=
  match atoi? s with
  | some v => (v, none)
  | none => match GoEnv.parseFloat s with
    | some v => (v, none)
    | none => match sscanD s.toList with
      | .ok v => (v, none)
      | .error e => (atoiFail s, some e)

end Docx
