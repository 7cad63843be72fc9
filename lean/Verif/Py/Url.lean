/-
`urllib.parse.quote_plus`, `unquote_plus` (as used by `parse_qs`) and `parse_qs`.
-/
import Verif.Py.Dict

namespace Verif

/-- characters `urllib.parse.quote` leaves alone: `[A-Za-z0-9_.~-]` -/
def isUrlSafe (c : Char) : Bool := isAsciiAlnum c || c == '_' || c == '.' || c == '-' || c == '~'

def hexUpper (n : Nat) : Char := if n % 16 < 10 then Nat.digitChar (n % 16) else Char.ofNat (55 + n % 16)

/-- UTF-8 encoding of one character as byte values -/
def utf8Bytes (c : Char) : List Nat :=
  let n := c.toNat
  if n < 0x80 then [n]
  else if n < 0x800 then [0xC0 + n / 64, 0x80 + n % 64]
  else if n < 0x10000 then [0xE0 + n / 4096, 0x80 + n / 64 % 64, 0x80 + n % 64]
  else [0xF0 + n / 262144, 0x80 + n / 4096 % 64, 0x80 + n / 64 % 64, 0x80 + n % 64]

/-- `'%{:02X}'.format(byte)` -/
def pctByte (b : Nat) : Str := ['%', hexUpper (b / 16), hexUpper b]

/-- `quote_plus` of one character: safe characters unchanged, blank to `+`, others percent-encoded -/
def quotePlusChar (c : Char) : Str :=
  if isUrlSafe c then [c] else if c = ' ' then ['+'] else (utf8Bytes c).flatMap pctByte

/-- `urllib.parse.quote_plus(s)` -/
def quotePlus (s : Str) : Str := s.flatMap quotePlusChar

/-- value of one hexadecimal digit -/
def hexVal (c : Char) : Option Nat :=
  let n := c.toNat
  if 48 ≤ n && n ≤ 57 then some (n - 48)
  else if 65 ≤ n && n ≤ 70 then some (n - 55)
  else if 97 ≤ n && n ≤ 102 then some (n - 87)
  else none

/-- `urllib.parse.unquote_to_bytes` of an ASCII string: `%XX` with two hexadecimal digits is one byte,
everything else stands for itself -/
def unquoteBytes : Str → List Nat
  | [] => []
  | [c] => [c.toNat]
  | [c, d] => [c.toNat, d.toNat]
  | c :: a :: b :: t =>
    match hexVal a, hexVal b with
    | some x, some y => if c = '%' then (16 * x + y) :: unquoteBytes t else c.toNat :: unquoteBytes (a :: b :: t)
    | _, _ => c.toNat :: unquoteBytes (a :: b :: t)

/-- a UTF-8 continuation byte -/
def isCont (b : Nat) : Bool := 0x80 ≤ b && b ≤ 0xBF

/-- the second bytes allowed after the first byte of a three-byte sequence -/
def okSecond3 (b b1 : Nat) : Bool :=
  isCont b1 && (b != 0xE0 || 0xA0 ≤ b1) && (b != 0xED || b1 ≤ 0x9F)

/-- the second bytes allowed after the first byte of a four-byte sequence -/
def okSecond4 (b b1 : Nat) : Bool :=
  isCont b1 && (b != 0xF0 || 0x90 ≤ b1) && (b != 0xF4 || b1 ≤ 0x8F)

/-- the replacement character -/
def uFFFD : Char := '\uFFFD'

/-- `bytes.decode('utf-8', errors='replace')`: each maximal ill-formed part becomes one U+FFFD -/
def decodeUtf8 : List Nat → Str
  | [] => []
  | b :: t =>
    if b < 0x80 then Char.ofNat b :: decodeUtf8 t
    else if 0xC2 ≤ b && b ≤ 0xDF then
      match t with
      | [] => [uFFFD]
      | b1 :: t1 =>
        if isCont b1 then Char.ofNat ((b - 0xC0) * 64 + (b1 - 0x80)) :: decodeUtf8 t1 else uFFFD :: decodeUtf8 (b1 :: t1)
    else if 0xE0 ≤ b && b ≤ 0xEF then
      match t with
      | [] => [uFFFD]
      | b1 :: t1 =>
        if okSecond3 b b1 then
          match t1 with
          | [] => [uFFFD]
          | b2 :: t2 =>
            if isCont b2 then Char.ofNat ((b - 0xE0) * 4096 + (b1 - 0x80) * 64 + (b2 - 0x80)) :: decodeUtf8 t2
            else uFFFD :: decodeUtf8 (b2 :: t2)
        else uFFFD :: decodeUtf8 (b1 :: t1)
    else if 0xF0 ≤ b && b ≤ 0xF4 then
      match t with
      | [] => [uFFFD]
      | b1 :: t1 =>
        if okSecond4 b b1 then
          match t1 with
          | [] => [uFFFD]
          | b2 :: t2 =>
            if isCont b2 then
              match t2 with
              | [] => [uFFFD]
              | b3 :: t3 =>
                if isCont b3 then
                  Char.ofNat ((b - 0xF0) * 262144 + (b1 - 0x80) * 4096 + (b2 - 0x80) * 64 + (b3 - 0x80)) :: decodeUtf8 t3
                else uFFFD :: decodeUtf8 (b3 :: t3)
            else uFFFD :: decodeUtf8 (b2 :: t2)
        else uFFFD :: decodeUtf8 (b1 :: t1)
    else uFFFD :: decodeUtf8 t

/-- Worker for `unquote`: `acc` is the current run of ASCII characters, reversed. -/
def unquoteAux : Str → Str → Str
  | [], acc => decodeUtf8 (unquoteBytes acc.reverse)
  | c :: t, acc =>
    if isAscii c then unquoteAux t (c :: acc) else decodeUtf8 (unquoteBytes acc.reverse) ++ c :: unquoteAux t []

/-- `urllib.parse.unquote(s)` (UTF-8, `errors='replace'`): each run of ASCII characters is percent-decoded
and decoded on its own, non-ASCII characters stay as they are -/
def unquote (s : Str) : Str := unquoteAux s []

/-- `urllib.parse.unquote(s.replace('+', ' '))` -/
def unquotePlus (s : Str) : Str := unquote (s.map (fun c => if c = '+' then ' ' else c))

/-- Worker for `splitChar`; `cur` is the current piece, reversed. -/
def splitCharAux (sep : Char) : Str → Str → List Str
  | [], cur => [cur.reverse]
  | c :: t, cur => if c = sep then cur.reverse :: splitCharAux sep t [] else splitCharAux sep t (c :: cur)

/-- `s.split(sep)` for a one-character separator -/
def splitChar (sep : Char) (s : Str) : List Str := splitCharAux sep s []

/-- `s.split('=', 1)` when it gives two parts -/
def splitEq : Str → Option (Str × Str)
  | [] => none
  | c :: t => if c = '=' then some ([], t) else (splitEq t).map (fun r => (c :: r.1, r.2))

/-- one piece of a query string in `parse_qsl` with the default arguments: pieces without `=` or with
an empty value are skipped -/
def parseQsPiece (p : Str) : Option (Str × Str) :=
  match splitEq p with
  | none => none
  | some (k, v) => if v = [] then none else some (unquotePlus k, unquotePlus v)

/-- `urllib.parse.parse_qsl(qs)` -/
def parseQsl (qs : Str) : List (Str × Str) := (splitChar '&' qs).filterMap parseQsPiece

/-- grouping of `parse_qs`: the values of each name, names in order of first appearance -/
def parseQsGroup : List (Str × Str) → Dict Str (List Str) → Dict Str (List Str)
  | [], d => d
  | (k, v) :: t, d => parseQsGroup t (Dict.set d k ((Dict.get? d k).getD [] ++ [v]))

/-- `urllib.parse.parse_qs(qs)` -/
def parseQs (qs : Str) : Dict Str (List Str) := parseQsGroup (parseQsl qs) []

end Verif
