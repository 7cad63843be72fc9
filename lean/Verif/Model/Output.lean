/-
abiflib/textoutput.py, abiflib/html_output_pairwise.py, abiflib/html_output_common.py, abiflib/vizelect.py:
the content that is handed to texttable, BeautifulSoup and graphviz.
-/
import Verif.Model.Irv
import Verif.Model.Export

namespace Verif

/-- `wltstr`, textoutput.py:70-74 and html_output_pairwise.py:46-51: `wins-losses-ties` -/
def recordStr (w : WLT) : Str := intStr w.wins ++ ('-' :: (intStr w.losses ++ ('-' :: intStr w.ties)))

/-- candidates by decreasing wins, textoutput.py:86-88 and html_output_pairwise.py:54-59; `wltdict[x]` is a
`KeyError` for an unknown candidate -/
def candsByWins (pairdict : PairDict) (wlt : Dict Str WLT) : Except PyErr (List Str) := do
  let keyed ← pairdict.keys.mapM fun c => do
    let w ← wlt.getE c
    .ok (c, w.wins)
  .ok ((sortByKeyDesc Prod.snd keyed).map Prod.fst)

/-! ### textoutput.py -/

/-- a cell given to `Texttable.add_row` -/
inductive TCell
  | text (s : Str)
  | num (i : Int)
  | none
deriving DecidableEq, Repr

/-- a pairwise count as a table cell -/
def TCell.ofCount : Option Int → TCell
  | some i => .num i
  | Option.none => .none

/-- the default `tablelabel`, textoutput.py:32 and 79 -/
def tableLabel : Str := c!"   Loser ->\nv Winner"

/-- the rows of `texttable_pairwise_and_winlosstie`, textoutput.py:77-117, header first -/
def textRows (m : Jabmod) : Except PyErr (List (List TCell)) := do
  let pairdict := pairwiseCount m
  let wlt ← winLossTie m.candidates.keys pairdict
  let candkeys ← candsByWins pairdict wlt
  let body ← candkeys.mapM fun ck => do
    let invals ← candkeys.mapM fun ik => pairGet pairdict ck ik
    let w ← wlt.getE ck
    .ok (TCell.text (ck ++ (' ' :: '(' :: (recordStr w ++ [')']))) :: invals.map TCell.ofCount)
  .ok ((.text tableLabel :: candkeys.map .text) :: body)

/-- the rows of `textgrid_for_2D_dict`, textoutput.py:38-48 -/
def gridRows (d : PairDict) : List (List TCell) :=
  (.text tableLabel :: d.keys.map .text) :: d.map fun row => .text row.1 :: row.2.values.map TCell.ofCount

/-- `re.subn(r"\|", r"+", ln, count=2)`: at most `n` replacements; the result and how many were made -/
def subnBar : Nat → Str → Str × Nat
  | 0, s => (s, 0)
  | _ + 1, [] => ([], 0)
  | n + 1, c :: t =>
    if c = '|' then (fun r : Str × Nat => ('+' :: r.1, r.2 + 1)) (subnBar n t)
    else (fun r : Str × Nat => (c :: r.1, r.2)) (subnBar (n + 1) t)

/-- `if count > 1: tabletextarray[i] = newln`, textoutput.py:127-130 -/
def plusLine (ln : Str) : Str := let r := subnBar 2 ln; if 1 < r.2 then r.1 else ln

/-- the text that replaces the drawing, textoutput.py:119-134 (and 50-64): line 3 gets `=` for `-`, then the
first two bars of each line become `+` -/
def postprocess (drawing : Str) : Except PyErr Str :=
  let lines := splitlines drawing
  match lines[3]? with
  | none => .error .indexError
  | some ln =>
    let lines := lines.set 3 (ln.map fun c => if c = '-' then '=' else c)
    .ok (joinStr c!"\n" (lines.map plusLine) ++ c!"\n\n")

/-- `texttable_pairwise_and_winlosstie`, textoutput.py:69-134.  `draw` is texttable's layout of the rows
(not modelled: it may also fail, for example when the table is too wide). -/
def texttablePairwise (draw : List (List TCell) → Except PyErr Str) (m : Jabmod) : Except PyErr Str := do
  let rows ← textRows m
  let drawing ← draw rows
  postprocess drawing

/-! ### html_output_common.py -/

/-- truthiness of a JSON value -/
def Json.truthy : Json → Bool
  | .null => false
  | .bool b => b
  | .int i => i ≠ 0
  | .str s => s ≠ []
  | .arr l => !l.isEmpty
  | .obj l => !l.isEmpty

/-- the default of `get_abif_title`, html_output_common.py:24 -/
def missingTitle : Str := c!"(.metadata.title and .metadata.filename missing)"

/-- `get_abif_title`, html_output_common.py:21-32 -/
def abifTitle (m : Jabmod) : Json :=
  if m.metadata.isEmpty then .str missingTitle
  else
    let t := (m.metadata.get? c!"title").getD .null
    if t.truthy then t else (m.metadata.get? c!"filename").getD (.str missingTitle)

/-- `', '.join(abifmodel['candidates'].values())`: a `TypeError` when a name is `None`,
html_output_common.py:38 -/
def joinCandNames (names : List (Option Str)) : Except PyErr Str := do
  let l ← names.mapM fun n => match n with
    | some s => Except.ok s
    | none => .error .typeError
  .ok (joinStr c!", " l)

/-- `get_abif_desc`, html_output_common.py:34-43 -/
def abifDesc (m : Jabmod) : Except PyErr Json := do
  let names ← joinCandNames m.candidates.values
  let dflt := c!"Candidate matchups for " ++ names
  .ok ((m.metadata.get? c!"description").getD (.str dflt))

/-! ### html_output_pairwise.py -/

/-- a matchup cell, html_output_pairwise.py:158-184: the earlier candidate `rk` and its votes, the row's
candidate `ck` and its votes, and whether the cell carries the dagger -/
structure HCell where
  rk : Str
  rkscore : Int
  ck : Str
  ckscore : Int
  dagger : Bool
deriving DecidableEq, Repr

/-- a table row, html_output_pairwise.py:117-191 -/
structure HRow where
  label : Str
  record : Str
  colspan : Int
  /-- the caption cell `"{ck} victories"`, if any -/
  victories : Option Str
  cells : List HCell
  losses : Str
deriving DecidableEq, Repr

/-- the page: heading (absent in a snippet), description, table, and whether the footnote with its dagger
is shown -/
structure HPage where
  title : Option Json
  desc : Option Json
  rows : List HRow
  footnote : Bool

/-- the row label, html_output_pairwise.py:119-121 -/
def htmlLabel (ck : Str) (name : Option Str) : Str :=
  if some ck = name then nameStr name else nameStr name ++ c!" [\"" ++ ck ++ c!"\"]"

/-- the cell for `rk` in the row of `ck`, if one is made, html_output_pairwise.py:150-184 -/
def htmlCell (pairdict : PairDict) (candtoks : List Str) (ck rk : Str) : Except PyErr (Option HCell) :=
  if ck = rk then .ok none
  else if candtoks.idxOf ck < candtoks.idxOf rk then .ok none
  else do
    let rkscore ← pairGet pairdict rk ck
    let ckscore ← pairGet pairdict ck rk
    match rkscore, ckscore with
    | some r, some c => .ok (some { rk := rk, rkscore := r, ck := ck, ckscore := c, dagger := !(decide (r > c)) })
    | _, _ => .error .typeError

/-- a row, html_output_pairwise.py:115-191; `colspan` is `wltcolspan` at that point -/
def htmlRow (m : Jabmod) (pairdict : PairDict) (wlt : Dict Str WLT) (candtoks : List Str) (ck : Str) (colspan : Int) :
    Except PyErr HRow := do
  let name ← m.candidates.getE ck
  let w ← wlt.getE ck
  let cells ← candtoks.reverse.mapM fun rk => htmlCell pairdict candtoks ck rk
  .ok { label := htmlLabel ck name
        record := '(' :: (recordStr w ++ [')'])
        colspan := if w.wins > 0 then colspan else colspan + 1
        victories := if w.wins > 0 then some (ck ++ c!" victories") else none
        cells := cells.filterMap id
        losses := if w.losses > 0 then c!"← " ++ ck ++ c!" losses" else ck ++ c!" is undefeated" }

/-- the loop over the candidates, html_output_pairwise.py:115-194 -/
def htmlRows (m : Jabmod) (pairdict : PairDict) (wlt : Dict Str WLT) (candtoks : List Str) :
    List Str → Int → Except PyErr (List HRow)
  | [], _ => .ok []
  | ck :: rest, colspan => do
    let r ← htmlRow m pairdict wlt candtoks ck colspan
    let rs ← htmlRows m pairdict wlt candtoks rest (colspan - 1)
    .ok (r :: rs)

/-- take the dagger off the last cell that has one; `none` when there is none -/
def unmarkCells : List HCell → Option (List HCell)
  | [] => none
  | c :: cs =>
    match unmarkCells cs with
    | some cs' => some (c :: cs')
    | none => if c.dagger then some ({ c with dagger := false } :: cs) else none

/-- the same for a whole table, in document order -/
def unmarkRows : List HRow → Option (List HRow)
  | [] => none
  | r :: rs =>
    match unmarkRows rs with
    | some rs' => some (r :: rs')
    | none =>
      match unmarkCells r.cells with
      | some cs => some ({ r with cells := cs } :: rs)
      | none => none

/-- `htmltable_pairwise_and_winlosstie`, html_output_pairwise.py:29-215, up to the rendering of the document by
BeautifulSoup, and without the embedded diagram (`svg_text`).  Lines 206-207 append `dagspan`, the tag made for
the last daggered cell, to the footnote: BeautifulSoup's `append` first takes it out of that cell. -/
def htmlPage (m : Jabmod) (addDesc snippet : Bool) : Except PyErr HPage := do
  let pairdict := pairwiseCount m
  let wlt ← winLossTie m.candidates.keys pairdict
  let candtoks ← candsByWins pairdict wlt
  let desc ← if addDesc then (do let d ← abifDesc m; .ok (some d)) else .ok none
  let rows ← htmlRows m pairdict wlt candtoks candtoks (candtoks.length + 1)
  let title := if snippet then none else some (abifTitle m)
  match unmarkRows rows with
  | some rows' => .ok { title := title, desc := desc, rows := rows', footnote := true }
  | none => .ok { title := title, desc := desc, rows := rows, footnote := false }

/-! ### vizelect.py -/

/-- the graph given to graphviz: node names and labels, edges (tail, head) and labels, in order -/
structure Graph where
  nodes : List (Str × Str)
  edges : List ((Str × Str) × Str)
deriving DecidableEq, Repr

/-- `max(winlosstie, key=...wins)`: the first candidate with the most wins, vizelect.py:31-32 -/
def topCandidate : Dict Str WLT → Except PyErr Str
  | [] => .error .valueError
  | (c, w) :: rest => .ok (rest.foldl (fun (best : Str × Int) kv => if kv.2.wins > best.2 then (kv.1, kv.2.wins) else best) (c, w.wins)).1

/-- the label of a node, vizelect.py:38-45 -/
def nodeLabel (top : Str) (c : Str) (w : WLT) : Str :=
  c ++ ('\n' :: recordStr w) ++
  (if c = top then
    c!"\n(" ++ intStr w.wins ++ c!" wins, " ++ intStr w.losses ++ c!" losses, " ++ intStr w.ties ++ c!" ties)"
  else [])

/-- the label of an edge, vizelect.py:53 -/
def edgeLabel (wcand : Str) (wtally : Int) (lcand : Str) (ltally : Int) : Str :=
  c!"← " ++ wcand ++ c!": " ++ intStr wtally ++ ('\n' :: lcand) ++ c!": " ++ intStr ltally

/-- one matchup, vizelect.py:51-54 -/
def vizEdge (d : PairDict) (wcand lcand : Str) (wtally : Option Int) : Except PyErr (Option ((Str × Str) × Str)) := do
  let ltally ← pairGet d lcand wcand
  if wcand = lcand then .ok none
  else
    match wtally, ltally with
    | some w, some l =>
      if w ≥ l then .ok (some ((wcand, lcand), edgeLabel wcand w lcand l)) else .ok none
    | _, _ => .error .typeError

/-- the graph built by `copecount_diagram`, vizelect.py:26-54 -/
def copecountGraph (cc : Copecount) : Except PyErr Graph := do
  let top ← topCandidate cc.winlosstie
  let nodes := cc.winlosstie.map fun kv => (kv.1, nodeLabel top kv.1 kv.2)
  let edges ← cc.winningvotes.mapM fun row => row.2.mapM fun cell => vizEdge cc.winningvotes row.1 cell.1 cell.2
  .ok { nodes := nodes, edges := edges.flatten.filterMap id }

/-- `diagram_output[start_index:]` with `start_index = diagram_output.find('<svg')`, vizelect.py:58-64: the part from the first
`<svg`; the whole text when there is none.  (`is_inline` is always true there.) -/
def fromSvg (s : Str) : Str := (dropTo s).getD s
where
  dropTo : Str → Option Str
  | [] => none
  | c :: t => if c!"<svg".isPrefixOf (c :: t) then some (c :: t) else dropTo t

end Verif
