/-
Python `str` primitives used by abiftool, on `List Char`.
These model CPython library behaviour (documented in the Python library reference), not code in /repo;
every use in the model cites the /repo line that calls them.
-/
import Lean.Elab.Tactic

namespace Verif

/-- Python `str`.  Lone surrogates (not representable as Lean `Char`) are out of scope. -/
abbrev Str := List Char

open Lean in
/-- `c!"abc"` is the literal `['a', 'b', 'c'] : Str`. -/
macro:max "c!" s:str : term => do
  let cs := (s.getString.toList.map fun c => Syntax.mkCharLit c).toArray
  `(([$cs,*] : List Char))

/-- Exceptions that the modelled Python code can raise. -/
inductive PyErr
  /-- `ABIFVotelineException` (abiflib/core.py:34-42). -/
  | voteline
  | keyError
  | indexError
  | typeError
  | valueError
  | nameError
  | attributeError
  | zeroDivision
  | fileNotFound
  /-- `sys.exit()` -/
  | systemExit
  /-- any other exception (a plain `Exception`, an `OSError`, ...) -/
  | other
  /-- model-only: the fuel of a recursion ran out (proved unreachable where used) -/
  | fuel
deriving DecidableEq, Repr

/-- `str.isspace` for one character, which is also what the regex class `\s` and `str.strip()` use. -/
def isSpace (c : Char) : Bool :=
  let n := c.toNat
  (9 ≤ n && n ≤ 13) || (28 ≤ n && n ≤ 32) || n == 0x85 || n == 0xA0 || n == 0x1680 ||
  (0x2000 ≤ n && n ≤ 0x200A) || n == 0x2028 || n == 0x2029 || n == 0x202F || n == 0x205F ||
  n == 0x3000

/-- The characters at which `str.splitlines()` breaks a line. -/
def isLineBreak (c : Char) : Bool :=
  let n := c.toNat
  (10 ≤ n && n ≤ 13) || (28 ≤ n && n ≤ 30) || n == 0x85 || n == 0x2028 || n == 0x2029

/-- The part of the Unicode database that the regex classes `\d`, `\w` and `int()` consult outside
ASCII.  The model is parametric in it; all theorems hold for every instance. -/
class Uni where
  /-- decimal value of a non-ASCII character of category Nd -/
  decHi : Char → Option Nat
  /-- `\w` on non-ASCII characters -/
  wordHi : Char → Bool
  decHi_lt : ∀ c d, decHi c = some d → d < 10
  decHi_not_space : ∀ c d, decHi c = some d → isSpace c = false
  wordHi_not_space : ∀ c, wordHi c = true → isSpace c = false
  decHi_word : ∀ c d, decHi c = some d → wordHi c = true

/-- A concrete instance: only ASCII digits and letters (used in examples). -/
@[reducible] def Uni.ascii : Uni where
  decHi _ := none
  wordHi _ := false
  decHi_lt := by intro c d h; cases h
  decHi_not_space := by intro c d h; cases h
  wordHi_not_space := by intro c h; cases h
  decHi_word := by intro c d h; cases h

def isAscii (c : Char) : Bool := c.toNat < 128

def isAsciiDigit (c : Char) : Bool := 48 ≤ c.toNat && c.toNat ≤ 57
def isAsciiUpper (c : Char) : Bool := 65 ≤ c.toNat && c.toNat ≤ 90
def isAsciiLower (c : Char) : Bool := 97 ≤ c.toNat && c.toNat ≤ 122
/-- `[A-Za-z0-9]` -/
def isAsciiAlnum (c : Char) : Bool := isAsciiDigit c || isAsciiUpper c || isAsciiLower c

section
variable [U : Uni]

/-- Decimal value of a `\d` character, as `int()` reads it. -/
def decVal (c : Char) : Option Nat :=
  if isAscii c then (if isAsciiDigit c then some (c.toNat - 48) else none) else U.decHi c

/-- regex class `\d` -/
def isDigit (c : Char) : Bool := (decVal c).isSome

/-- regex class `\w` -/
def isWord (c : Char) : Bool :=
  if isAscii c then (isAsciiAlnum c || c == '_') else U.wordHi c

/-- `int(s)` for a string of decimal digits. -/
def digitsVal (s : Str) : Nat := s.foldl (fun a c => 10 * a + (decVal c).getD 0) 0

end

/-- `str.lstrip()` -/
def lstrip (s : Str) : Str := s.dropWhile isSpace
/-- `str.rstrip()` -/
def rstrip (s : Str) : Str := (s.reverse.dropWhile isSpace).reverse
/-- `str.strip()` -/
def strip (s : Str) : Str := rstrip (lstrip s)

/-- Worker for `splitlines`: `cur` is the current line read so far, reversed. -/
def splitlinesAux : Str → Str → List Str
  | [], [] => []
  | [], c :: cur => [(c :: cur).reverse]
  | '\r' :: '\n' :: t, cur => cur.reverse :: splitlinesAux t []
  | c :: t, cur =>
    if isLineBreak c then cur.reverse :: splitlinesAux t [] else splitlinesAux t (c :: cur)

/-- `str.splitlines()`: line breaks are removed, `\r\n` counts once, and no empty last line is
produced when the text ends with a line break. -/
def splitlines (s : Str) : List Str := splitlinesAux s []

/-- decimal rendering of a natural number (`str(n)`) -/
def natStr (n : Nat) : Str := Nat.toDigits 10 n

/-- decimal rendering of an integer (`str(i)`) -/
def intStr : Int → Str
  | .ofNat n => natStr n
  | .negSucc n => '-' :: natStr (n + 1)

/-- `sep.join(parts)` -/
def joinStr (sep : Str) : List Str → Str
  | [] => []
  | [x] => x
  | x :: y :: t => x ++ sep ++ joinStr sep (y :: t)

/-- Python `a <= b` on `str`: lexicographic by code point. -/
def strLe : Str → Str → Bool
  | [], _ => true
  | _ :: _, [] => false
  | a :: s, b :: t => if a.toNat < b.toNat then true else if b.toNat < a.toNat then false else strLe s t

end Verif
