/-
Specification vocabulary for PrefLib files: how alternatives and votes are written.
-/
import Verif.Spec.Tiers

namespace Verif.Spec
variable [Uni]

/-- One place of a ranking: an alternative number, or a braced group of them. -/
inductive PItem
  | bare (n : Nat)
  | group (ns : List Nat)
deriving DecidableEq, Repr

/-- the alternative numbers of a place -/
def PItem.nums : PItem → List Nat
  | .bare n => [n]
  | .group ns => ns

/-- the place as written -/
def PItem.text : PItem → Str
  | .bare n => natStr n
  | .group ns => '{' :: (joinStr [','] (ns.map natStr) ++ ['}'])

/-- A line of a PrefLib file. -/
inductive PLine
  /-- `# ALTERNATIVE NAME k: name` -/
  | alt (k : Nat) (name : Str)
  /-- `qty: place,place,...` -/
  | vote (qty : Nat) (places : List PItem)
  /-- any other comment line -/
  | comment (text : Str)

/-- the line as written -/
def PLine.text : PLine → Str
  | .alt k name => c!"# ALTERNATIVE NAME " ++ (natStr k ++ (':' :: ' ' :: name))
  | .vote q places => natStr q ++ (':' :: ' ' :: joinStr [','] (places.map PItem.text))
  | .comment t => '#' :: t

/-- A file this specification speaks about: names on one line, no empty group, comments on one line that are not
themselves alternative names. -/
def PLine.Ok : PLine → Prop
  | .alt _ name => ∀ c ∈ name, isLineBreak c = false
  | .vote _ places => ∀ p ∈ places, p.nums ≠ []
  | .comment t => (∀ c ∈ t, isLineBreak c = false) ∧ ¬ c!" ALTERNATIVE NAME " <+: t

/-- the whole file -/
def prefText (doc : List PLine) : Str := doc.flatMap (fun l => l.text ++ ['\n'])

/-- the alternatives, number and name, in the order of the file -/
def prefAlts (doc : List PLine) : List (Nat × Str) :=
  doc.filterMap (fun l => match l with | .alt k name => some (k, name) | _ => none)

/-- the alternatives are listed as 1, 2, 3, … -/
def Numbered (doc : List PLine) : Prop := (prefAlts doc).map Prod.fst = List.range' 1 (prefAlts doc).length

/-- the votes, in the order of the file -/
def prefVotes (doc : List PLine) : List (Nat × List (List Nat)) :=
  doc.filterMap (fun l => match l with | .vote q places => some (q, places.map PItem.nums) | _ => none)

/-- a name without its spaces -/
def noSpaces (s : Str) : Str := s.filter (fun c => decide (c ≠ ' '))

/-- the name of the alternative with a given number -/
def altNameOf (alts : List (Nat × Str)) (n : Nat) : Option Str := (alts.find? (fun a => decide (a.1 = n))).map Prod.snd

/-- its token -/
def altTok (alts : List (Nat × Str)) (n : Nat) : Str := noSpaces ((altNameOf alts n).getD [])

/-- the vote as a ballot over tokens -/
def prefBallot (alts : List (Nat × Str)) (v : Nat × List (List Nat)) : ImpVote :=
  { qty := natStr v.1, tiers := v.2.map (fun t => t.map (altTok alts)) }

/-- every number in a vote is the number of an alternative -/
def InRange (doc : List PLine) : Prop :=
  ∀ v ∈ prefVotes doc, ∀ t ∈ v.2, ∀ n ∈ t, (altNameOf (prefAlts doc) n).isSome = true

/-! ### how the program reads the numbers -/

/-- the alternatives numbered in the order of the file, whatever their numbers -/
def renumbered : Nat → List PLine → List PLine
  | _, [] => []
  | k, .alt _ name :: t => .alt k name :: renumbered (k + 1) t
  | k, l :: t => l :: renumbered k t

/-- the number 0 taken for the number `n` -/
def zeroAs (n : Nat) : Nat → Nat := fun k => if k = 0 then n else k

/-- … in a place of a ranking -/
def PItem.zeroAs (n : Nat) : PItem → PItem
  | .bare k => .bare (Spec.zeroAs n k)
  | .group ks => .group (ks.map (Spec.zeroAs n))

/-- … in a line -/
def PLine.zeroAs (n : Nat) : PLine → PLine
  | .vote q places => .vote q (places.map (PItem.zeroAs n))
  | l => l

/-- The file as the program reads it: the alternatives are numbered 1, 2, 3, … in the order of the file, and in the votes 0 is
the last of them. -/
def asRead (doc : List PLine) : List PLine := renumbered 1 (doc.map (PLine.zeroAs (prefAlts doc).length))

end Verif.Spec
