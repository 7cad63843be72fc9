/-
A backtracking matcher with Python `re` priority (greedy) semantics for the fragment of regular
expressions abiftool uses: sequences of single-character classes, each bare or under `?`, `*`, `+`.
Capturing groups are recovered from the list of strings consumed by each atom.
-/
import Verif.Py.Str

namespace Verif

/-- One regex item over a character class. -/
inductive Atom
  | one (p : Char → Bool)
  | opt (p : Char → Bool)
  | star (p : Char → Bool)
  | plus (p : Char → Bool)

/-- Greedy `*` over class `p`: extend as far as possible, then call the continuation `k`, giving back
one character at a time on failure.  `acc` is what was consumed so far, reversed. -/
def starGo {α : Type} (p : Char → Bool) (k : Str → Str → Option α) : Str → Str → Option α
  | [], acc => k [] acc
  | c :: t, acc => if p c then (starGo p k t (c :: acc)).or (k (c :: t) acc) else k (c :: t) acc

/-- Match the atoms at the start of the string and require `fin` of the rest; returns the strings
consumed by the atoms and the rest. -/
def rmatch (fin : Str → Bool) : List Atom → Str → Option (List Str × Str)
  | [], s => if fin s then some ([], s) else none
  | .one p :: as, s =>
    match s with
    | [] => none
    | c :: t => if p c then (rmatch fin as t).map (fun r => ([c] :: r.1, r.2)) else none
  | .opt p :: as, s =>
    match s with
    | [] => (rmatch fin as []).map (fun r => ([] :: r.1, r.2))
    | c :: t =>
      if p c then
        ((rmatch fin as t).map (fun r => ([c] :: r.1, r.2))).or
          ((rmatch fin as (c :: t)).map (fun r => ([] :: r.1, r.2)))
      else (rmatch fin as (c :: t)).map (fun r => ([] :: r.1, r.2))
  | .star p :: as, s =>
    starGo p (fun rest acc => (rmatch fin as rest).map (fun r => (acc.reverse :: r.1, r.2))) s []
  | .plus p :: as, s =>
    match s with
    | [] => none
    | c :: t =>
      if p c then
        starGo p (fun rest acc => (rmatch fin as rest).map (fun r => (acc.reverse :: r.1, r.2))) t [c]
      else none

/-- `re.match(pattern + '$', s)` on a string without line breaks: the whole string must match. -/
def fullMatch (as : List Atom) (s : Str) : Option (List Str) :=
  (rmatch List.isEmpty as s).map Prod.fst

/-- `re.match(pattern, s)` without end anchor: consumed pieces and the unconsumed rest. -/
def prefixMatch (as : List Atom) (s : Str) : Option (List Str × Str) :=
  rmatch (fun _ => true) as s

/-- `re.search(pattern, s)`: leftmost position at which the pattern matches; returns the text before,
the consumed pieces and the rest. -/
def searchMatch (fin : Str → Bool) (as : List Atom) : Str → Option (Str × List Str × Str)
  | [] => (rmatch fin as []).map (fun r => ([], r.1, r.2))
  | c :: t =>
    match rmatch fin as (c :: t) with
    | some r => some ([], r.1, r.2)
    | none => (searchMatch fin as t).map (fun r => (c :: r.1, r.2))

/-- literal text as atoms -/
def litAtoms (s : Str) : List Atom := s.map (fun c => .one (fun x => x == c))

/-- Split `s` at the characters satisfying `p`, keeping each separator as its own piece:
`re.split(r'(p)', s)` for a one-character capturing pattern. `cur` is the current piece reversed. -/
def splitKeepAux (p : Char → Bool) : Str → Str → List Str
  | [], cur => [cur.reverse]
  | c :: t, cur => if p c then cur.reverse :: [c] :: splitKeepAux p t [] else splitKeepAux p t (c :: cur)

def splitKeep (p : Char → Bool) (s : Str) : List Str := splitKeepAux p s []

/-- `re.sub(pattern, repl, s)` / `re.subn`, where `m` gives the length of the match at the start of a
string (patterns here never match the empty string).  `skip` counts characters of the current match
still to be dropped. -/
def reSubAux (m : Str → Option Nat) (repl : Str) : Nat → Str → Str
  | _, [] => []
  | skip + 1, _ :: t => reSubAux m repl skip t
  | 0, c :: t =>
    match m (c :: t) with
    | some (n + 1) => repl ++ reSubAux m repl n t
    | _ => c :: reSubAux m repl 0 t

def reSub (m : Str → Option Nat) (repl : Str) (s : Str) : Str := reSubAux m repl 0 s

/-- length consumed by a list of pieces -/
def piecesLen (ps : List Str) : Nat := (ps.map List.length).sum

/-- the match length of an atom pattern at the start of a string -/
def matchLen (as : List Atom) (s : Str) : Option Nat :=
  (prefixMatch as s).map (fun r => piecesLen r.1)

end Verif
