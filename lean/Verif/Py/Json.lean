/-
JSON values and Python's `json.dumps` with default arguments (`ensure_ascii=True`, separators
`", "` and `": "`), and with `sort_keys=True`.  Floats are not modelled (no modelled code dumps one).
-/
import Verif.Py.Dict

namespace Verif

inductive Json
  | null
  | bool (b : Bool)
  | int (i : Int)
  | str (s : Str)
  | arr (l : List Json)
  | obj (l : List (Str × Json))

/-- one lower-case hexadecimal digit -/
def hexLower (n : Nat) : Char := Nat.digitChar (n % 16)

/-- `'\\u{0:04x}'.format(n)` -/
def uEscape (n : Nat) : Str :=
  ['\\', 'u', hexLower (n / 4096), hexLower (n / 256), hexLower (n / 16), hexLower n]

/-- escape of one character in `py_encode_basestring_ascii` (Lib/json/encoder.py) -/
def jsonEscChar (c : Char) : Str :=
  if c = '"' then c!"\\\""
  else if c = '\\' then c!"\\\\"
  else if c = '\n' then c!"\\n"
  else if c = '\r' then c!"\\r"
  else if c = '\t' then c!"\\t"
  else if c.toNat = 12 then c!"\\f"
  else if c.toNat = 8 then c!"\\b"
  else if 32 ≤ c.toNat ∧ c.toNat ≤ 126 then [c]
  else if c.toNat < 0x10000 then uEscape c.toNat
  else
    let n := c.toNat - 0x10000
    uEscape (0xd800 + n / 1024) ++ uEscape (0xdc00 + n % 1024)

/-- `json.dumps(s)` for a string -/
def jsonStr (s : Str) : Str := '"' :: (s.flatMap jsonEscChar ++ ['"'])

mutual
/-- `json.dumps(v)` -/
def Json.dumps : Json → Str
  | .null => c!"null"
  | .bool true => c!"true"
  | .bool false => c!"false"
  | .int i => intStr i
  | .str s => jsonStr s
  | .arr l => '[' :: (Json.dumpsArr l ++ [']'])
  | .obj l => '{' :: (Json.dumpsObj l ++ ['}'])
def Json.dumpsArr : List Json → Str
  | [] => []
  | [x] => x.dumps
  | x :: y :: t => x.dumps ++ (',' :: ' ' :: Json.dumpsArr (y :: t))
def Json.dumpsObj : List (Str × Json) → Str
  | [] => []
  | [(k, v)] => jsonStr k ++ (':' :: ' ' :: v.dumps)
  | (k, v) :: e :: t => jsonStr k ++ (':' :: ' ' :: (v.dumps ++ (',' :: ' ' :: Json.dumpsObj (e :: t))))
end

mutual
/-- recursively sort object entries by key, as `sort_keys=True` does while dumping -/
def Json.sortKeys : Json → Json
  | .arr l => .arr (Json.sortKeysArr l)
  | .obj l => .obj (pySort (fun a b => strLe a.1 b.1) (Json.sortKeysObj l))
  | .null => .null
  | .bool b => .bool b
  | .int i => .int i
  | .str s => .str s
def Json.sortKeysArr : List Json → List Json
  | [] => []
  | x :: t => x.sortKeys :: Json.sortKeysArr t
def Json.sortKeysObj : List (Str × Json) → List (Str × Json)
  | [] => []
  | (k, v) :: t => (k, v.sortKeys) :: Json.sortKeysObj t
end

/-- `json.dumps(v, sort_keys=True)` -/
def Json.dumpsSorted (j : Json) : Str := j.sortKeys.dumps

end Verif
