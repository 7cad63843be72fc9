/-
Specification vocabulary for .abif text, written without the model's regex machinery: how a line reads.
-/
import Verif.Model.Jabmod

namespace Verif.Spec

/-- The part of a line before its first `#`. -/
def beforeHash (line : Str) : Str := line.takeWhile (fun c => c != '#')

/-- The comment of a line: everything from its first `#` on, if there is one. -/
def hashComment (line : Str) : Option Str :=
  if '#' ∈ line then some (line.dropWhile (fun c => c != '#')) else none

/-- drop the first character if it satisfies `p` -/
def dropOne (p : Char → Bool) : Str → Str
  | [] => []
  | c :: t => if p c then t else c :: t

/-- A candidate line `=token:description`: after `=`, blanks and one optional `[` or `"`; the token runs
up to `:`, `"` or `]`; then an optional `"`, a colon, and the description, optionally in `[ ]`, which
must not contain `]`.  Returns token and description. -/
def readCand (s : Str) : Option (Str × Str) :=
  match s with
  | '=' :: t =>
    let u := dropOne (fun c => c == '"' || c == '[') (t.dropWhile isSpace)
    let tok := u.takeWhile (fun c => !(c == ':' || c == '"' || c == ']'))
    match dropOne (fun c => c == '"') (u.dropWhile (fun c => !(c == ':' || c == '"' || c == ']'))) with
    | ':' :: d =>
      let d := dropOne (fun c => c == '[') d
      if d.dropWhile (fun c => c != ']') = [] ∨ d.dropWhile (fun c => c != ']') = [']'] then
        some (tok, d.takeWhile (fun c => c != ']'))
      else none
    | _ => none
  | _ => none

section
variable [Uni]

/-- A voteline `digits:preferences`.  Returns both parts. -/
def readVote (s : Str) : Option (Str × Str) :=
  match s.dropWhile isDigit with
  | ':' :: p => if s.takeWhile isDigit = [] then none else some (s.takeWhile isDigit, p)
  | _ => none

/-- A metadata line with the given key and value: `{`, blanks, an optional quote, the key, blanks, an
optional quote, blanks, a colon, blanks, an optional quote, the value, blanks, an optional quote, blanks,
`}`.  Keys are made of word characters and blanks; values may also use `, . ( ) - ? : ' /`. -/
def MetaForm (s key val : Str) : Prop :=
  ∃ w1 q1 w2 q2 w3 w4 q3 w5 q4 w6 : Str,
    s = ['{'] ++ w1 ++ q1 ++ key ++ w2 ++ q2 ++ w3 ++ [':'] ++ w4 ++ q3 ++ val ++ w5 ++ q4 ++ w6 ++ ['}'] ∧
    (∀ w ∈ [w1, w2, w3, w4, w5, w6], ∀ c ∈ w, isSpace c = true) ∧
    (∀ q ∈ [q1, q2, q3, q4], q = [] ∨ q = ['\''] ∨ q = ['"']) ∧
    key ≠ [] ∧ (∀ c ∈ key, (isWord c || isSpace c) = true) ∧
    val ≠ [] ∧ (∀ c ∈ val, (isWord c || isSpace c || [',', '.', '(', ')', '-', '?', ':', '\'', '/'].contains c) = true)

/-- a single or double quote -/
def quoteChar (c : Char) : Bool := c == '\'' || c == '"'

/-- the characters of metadata keys -/
def keyChar (c : Char) : Bool := isWord c || isSpace c

/-- the characters of metadata values -/
def valChar (c : Char) : Bool := isWord c || isSpace c || [',', '.', '(', ')', '-', '?', ':', '\'', '/'].contains c

/-- an optional quote and blanks are passed over -/
def afterQuote (s : Str) : Str := (dropOne quoteChar s).dropWhile isSpace

/-- The key at the start of a text, and the text after it: blanks and an optional quote are passed over, then the
key is the longest run of key characters.  If there is none but there were blanks, the last blank is the key. -/
def readKey (t : Str) : Option (Str × Str) :=
  let u := t.dropWhile isSpace
  let v := dropOne quoteChar u
  if v.takeWhile keyChar ≠ [] then some (v.takeWhile keyChar, v.dropWhile keyChar)
  else (t.takeWhile isSpace).getLast?.map (fun c => ([c], u))

/-- The value at the start of a text, and the text after it: blanks and an optional quote are passed over, then the
value is the longest run of value characters (a single quote is one).  If there is none, a passed single quote, or
else the last blank, is the value. -/
def readVal (t : Str) : Option (Str × Str) :=
  let u := t.dropWhile isSpace
  let v := dropOne quoteChar u
  if v.takeWhile valChar ≠ [] then some (v.takeWhile valChar, v.dropWhile valChar)
  else if u.head? = some '\'' then some (['\''], v)
  else (t.takeWhile isSpace).getLast?.map (fun c => ([c], u))

/-- A metadata line `{key: value}`: returns key and value. -/
def readMeta (s : Str) : Option (Str × Str) :=
  match s with
  | '{' :: t =>
    match readKey t with
    | some (key, r) =>
      match afterQuote r with
      | ':' :: v =>
        match readVal v with
        | some (val, r') => if afterQuote r' = ['}'] then some (key, val) else none
        | none => none
      | _ => none
    | none => none
  | _ => none

end

/-- The voter id announced by a comment `##VID:<id>`: the run of non-blank characters after the prefix. -/
def readVid (comment : Str) : Option Str :=
  if c!"##VID:".isPrefixOf comment then
    match (comment.drop 6).takeWhile (fun c => !isSpace c) with
    | [] => none
    | v => some v
  else none

/-- The lines of a text; with `cleanws`, each without its leading blanks. -/
def textLines (cleanws : Bool) (text : Str) : List Str :=
  (splitlines text).map (fun l => if cleanws then lstrip l else l)

/-- What a line says when it is a voteline: digits, preferences, comment. -/
def lineVote [Uni] (line : Str) : Option (Str × Str × Option Str) :=
  (readVote (beforeHash line)).map (fun qp => (qp.1, qp.2, hashComment line))

/-- The votelines of a text, in file order. -/
def votesOf [Uni] (cleanws : Bool) (text : Str) : List (Str × Str × Option Str) :=
  (textLines cleanws text).filterMap lineVote

/-- first occurrences, in order -/
def firsts {κ : Type} [DecidableEq κ] : List κ → List κ
  | [] => []
  | x :: xs => x :: (firsts xs).filter (fun y => decide (y ≠ x))

end Verif.Spec
