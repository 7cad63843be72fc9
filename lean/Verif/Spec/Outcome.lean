/-
Specification for C99: which outputs an election has.
-/
import Verif.Model.Cli
import Verif.Spec.Score
import Verif.Spec.Tally
import Verif.Spec.Irv

namespace Verif.Spec
variable [Uni]

/-- an election as the readers of the ballot formats make it: ballots name known candidates, every entry has a rank and no
unreadable rating, and the metadata has the number of ballots -/
structure Tallyable (m : Jabmod) : Prop where
  scorable : Scorable m
  ranked : AllRanked m
  total : Dict.get? m.metadata c!"ballotcount" = some (.int (m.votelines.map Voteline.qty).sum)

/-- … and every candidate has a name -/
structure Sound (m : Jabmod) : Prop extends Tallyable m where
  named : ∀ c, Dict.get? m.candidates c ≠ some none

/-- the outputs that use the names of the candidates as text: the pages, and the results of IRV -/
def NeedsNames («to» : Str) (mods : List Str) : Prop :=
  «to» = c!"html" ∨ «to» = c!"html_snippet" ∨ «to» = c!"irvjson" ∨ c!"IRV" ∈ mods

/-- texttable, graphviz and BeautifulSoup do their work on what they are given for this election -/
structure LibrariesWork (env : CliEnv) (width : Int) (m : Jabmod) : Prop where
  table : ∀ rows, textRows m = .ok rows → ∃ t, env.draw rows = .ok t ∧ 4 ≤ (splitlines t).length
  grid : ∃ t, env.drawWide width (gridRows (pairwiseCount m)) = .ok t ∧ 4 ≤ (splitlines t).length
  diagram : ∀ fmt g, ∃ t, env.pipe fmt g = .ok t
  page : ∀ snippet svg p, ∃ t, env.html snippet svg p = .ok t

/-- the first failure that applies -/
def firstFailure : List (Bool × PyErr) → Option PyErr
  | [] => none
  | (b, e) :: rest => if b then some e else firstFailure rest

/-- there are fewer than `n` candidates -/
def fewer (n : Nat) (m : Jabmod) : Bool := decide (m.candidates.length < n)

/-- the first ballot line names nobody -/
def firstBlank (m : Jabmod) : Bool :=
  match m.votelines with
  | vl :: _ => vl.prefs.isEmpty
  | [] => true

/-- the candidate named first on the first ballot line has a rating other than zero -/
def firstRated (m : Jabmod) : Bool :=
  match m.votelines with
  | { prefs := (_, p) :: _, .. } :: _ => ratingTruthy p.rating
  | _ => false

/-- how the output in the given format, with the given modifiers, fails; `none` if it does not -/
def outputFailure («to» : Str) (mods : List Str) (m : Jabmod) : Option PyErr :=
  if «to» = c!"csvrank" then firstFailure [(m.votelines.any (fun vl => decide (vl.qty ≤ 0)), .voteline)]
  else if «to» = c!"dot" ∨ «to» = c!"svg" then firstFailure [(fewer 1 m, .valueError)]
  else if «to» = c!"html_snippet" then firstFailure [(decide (c!"svg" ∈ mods) && fewer 1 m, .valueError)]
  else if «to» = c!"irvjson" ∨ («to» = c!"json" ∨ «to» = c!"paircountjson") ∧ c!"IRV" ∈ mods then firstFailure [(fewer 1 m, .valueError)]
  else if «to» = c!"json" ∧ c!"pairwise" ∉ mods ∧ c!"STAR" ∈ mods then firstFailure [(fewer 2 m, .indexError)]
  else if «to» = c!"text" then
    firstFailure [(decide (c!"IRV" ∈ mods) && fewer 1 m, .valueError),
                  (decide (c!"score" ∈ mods) && fewer 1 m, .indexError),
                  (decide (c!"STAR" ∈ mods) && (firstBlank m || (firstRated m && fewer 2 m)), .indexError),
                  (decide (c!"Copeland" ∈ mods) && fewer 1 m, .indexError)]
  else none

/-- a computation ends as foretold -/
def EndsAs {α : Type} (r : Except PyErr α) (f : Option PyErr) : Prop :=
  match f with
  | some e => r = .error e
  | none => ∃ x, r = .ok x

end Verif.Spec
