/-
Specification vocabulary for CSV output: a CSV reader (RFC 4180, the excel dialect) and the expected rows.
-/
import Verif.Spec.Ballots

namespace Verif.Spec

/-- where the reader is: at the start of a field, inside a plain field, inside a quoted field, or just after
a quote inside a quoted field (which either ends the field or is the first of two) -/
inductive CsvMode
  | start | plain | quoted | quote
deriving DecidableEq

/-- Reads CSV text: rows end with `\r\n`, fields are separated by commas, a field may be enclosed in quotes,
and then `""` inside stands for one quote.  `row` holds the finished fields of the current row and `cur`
the characters of the current field, both reversed.  Text that is not of this form gives `none`. -/
def csvReadAux : CsvMode → List Str → Str → Str → Option (List (List Str))
  | .start, [], [], [] => some []
  | _, _, _, [] => none
  | .start, row, cur, '"' :: t => csvReadAux .quoted row cur t
  | .quoted, row, cur, '"' :: t => csvReadAux .quote row cur t
  | .quoted, row, cur, c :: t => csvReadAux .quoted row (c :: cur) t
  | .quote, row, cur, '"' :: t => csvReadAux .quoted row ('"' :: cur) t
  | .plain, _, _, '"' :: _ => none
  | _, row, cur, ',' :: t => csvReadAux .start (cur.reverse :: row) [] t
  | _, row, cur, '\r' :: '\n' :: t => (csvReadAux .start [] [] t).map (fun rows => (cur.reverse :: row).reverse :: rows)
  | .quote, _, _, _ :: _ => none
  | .start, row, cur, c :: t => csvReadAux .plain row (c :: cur) t
  | .plain, row, cur, c :: t => csvReadAux .plain row (c :: cur) t

/-- the rows of a CSV text -/
def csvRead (s : Str) : Option (List (List Str)) := csvReadAux .start [] [] s

/-- the rank of candidate `c` on a voteline as a CSV cell; empty when the candidate is not listed -/
def rankCell (vl : Voteline) (c : Str) : Str :=
  match Dict.get? vl.prefs c with
  | some p => match p.rank with | some r => intStr r | none => []
  | none => []

end Verif.Spec
