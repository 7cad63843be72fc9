/-
Python's `json.loads` (Lib/json/decoder.py, scanner.py) and `json.dumps(v, indent=4)`.
Floats are not modelled: reading one is the error `other`, as is a lone surrogate (not a Lean `Char`).
`JSONDecodeError` is a `ValueError`.  The recursion limit is not modelled.
-/
import Verif.Py.Json

namespace Verif

/-- the whitespace `[ \t\n\r]` of JSON, decoder.py `WHITESPACE` -/
def jsonWs (c : Char) : Bool := c == ' ' || c == '\t' || c == '\n' || c == '\r'

/-- skip whitespace -/
def skipWs (s : Str) : Str := s.dropWhile jsonWs

/-- value of a hexadecimal digit -/
def hexDigitVal (c : Char) : Option Nat :=
  if isAsciiDigit c then some (c.toNat - 48)
  else if 97 ≤ c.toNat ∧ c.toNat ≤ 102 then some (c.toNat - 87)
  else if 65 ≤ c.toNat ∧ c.toNat ≤ 70 then some (c.toNat - 55)
  else none

/-- `_decode_uXXXX` -/
def hex4 (s : Str) : Option (Nat × Str) :=
  match s with
  | a :: b :: c :: d :: r =>
    match hexDigitVal a, hexDigitVal b, hexDigitVal c, hexDigitVal d with
    | some a, some b, some c, some d => some (4096 * a + 256 * b + 16 * c + d, r)
    | _, _, _, _ => none
  | _ => none

/-- `BACKSLASH` table of decoder.py -/
def simpleEsc (c : Char) : Option Char :=
  if c = '"' then some '"' else if c = '\\' then some '\\' else if c = '/' then some '/'
  else if c = 'b' then some (Char.ofNat 8) else if c = 'f' then some (Char.ofNat 12) else if c = 'n' then some '\n'
  else if c = 'r' then some '\r' else if c = 't' then some '\t' else none

/-- one step of `py_scanstring` -/
inductive ScanStep
  | stop (rest : Str)
  | char (c : Char) (rest : Str)

/-- the low half of a surrogate pair -/
def lowHalf (hi : Nat) (s : Str) : Except PyErr ScanStep :=
  match s with
  | '\\' :: 'u' :: r =>
    match hex4 r with
    | none => .error .valueError
    | some (lo, r') =>
      if 0xdc00 ≤ lo ∧ lo ≤ 0xdfff then .ok (.char (Char.ofNat (0x10000 + ((hi - 0xd800) * 1024 + (lo - 0xdc00)))) r')
      else .error .other
  | _ => .error .other

/-- `\uXXXX` -/
def uniEsc (s : Str) : Except PyErr ScanStep :=
  match hex4 s with
  | none => .error .valueError
  | some (n, r) =>
    if 0xd800 ≤ n ∧ n ≤ 0xdbff then lowHalf n r
    else if 0xdc00 ≤ n ∧ n ≤ 0xdfff then .error .other
    else .ok (.char (Char.ofNat n) r)

/-- one character of a string literal, or its end -/
def scanStep (s : Str) : Except PyErr ScanStep :=
  match s with
  | [] => .error .valueError
  | c :: r =>
    if c = '"' then .ok (.stop r)
    else if c = '\\' then
      match r with
      | [] => .error .valueError
      | e :: r' =>
        if e = 'u' then uniEsc r'
        else match simpleEsc e with
          | some d => .ok (.char d r')
          | none => .error .valueError
    else if c.toNat < 32 then .error .valueError
    else .ok (.char c r)

/-- `py_scanstring`, after the opening quote -/
def scanString : Nat → Str → Except PyErr (Str × Str)
  | 0, _ => .error .fuel
  | n + 1, s =>
    match scanStep s with
    | .error e => .error e
    | .ok (.stop r) => .ok ([], r)
    | .ok (.char c r) =>
      match scanString n r with
      | .error e => .error e
      | .ok (t, r') => .ok (c :: t, r')

/-- `0|[1-9][0-9]*` -/
def jsonNat (s : Str) : Option (Str × Str) :=
  if s.head? = some '0' then some (['0'], s.tail)
  else if s.takeWhile isAsciiDigit = [] then none
  else some (s.takeWhile isAsciiDigit, s.dropWhile isAsciiDigit)

/-- value of a string of ASCII digits -/
def asciiVal (s : Str) : Nat := s.foldl (fun a c => 10 * a + (c.toNat - 48)) 0

/-- does the text continue as a float: `\.[0-9]+` or `[eE][-+]?[0-9]+` -/
def floatTail (s : Str) : Bool :=
  match s with
  | c :: r =>
    if c = '.' then r.head?.any isAsciiDigit
    else if c = 'e' ∨ c = 'E' then
      match r with
      | d :: r' => if d = '-' ∨ d = '+' then r'.head?.any isAsciiDigit else isAsciiDigit d
      | [] => false
    else false
  | [] => false

/-- a number, scanner.py `NUMBER_RE` -/
def jsonNumber (s : Str) : Except PyErr (Json × Str) :=
  let neg := s.head? = some '-'
  match jsonNat (if neg then s.tail else s) with
  | none => .error .valueError
  | some (d, r) =>
    if floatTail r then .error .other
    else .ok (.int (if neg then -(asciiVal d : Int) else asciiVal d), r)

mutual
/-- `scan_once`, scanner.py; the first argument bounds the depth of the recursion -/
def jsonVal : Nat → Str → Except PyErr (Json × Str)
  | 0, _ => .error .fuel
  | n + 1, s =>
    match s with
    | [] => .error .valueError
    | c :: r =>
      if c = '"' then
        match scanString (r.length + 1) r with
        | .error e => .error e
        | .ok (t, r') => .ok (.str t, r')
      else if c = '{' then
        if (skipWs r).head? = some '}' then .ok (.obj [], (skipWs r).tail)
        else
          match jsonMembers n r with
          | .error e => .error e
          | .ok (kvs, r') => .ok (.obj (kvs.foldl (fun d kv => Dict.set d kv.1 kv.2) []), r')
      else if c = '[' then
        if (skipWs r).head? = some ']' then .ok (.arr [], (skipWs r).tail)
        else
          match jsonElems n r with
          | .error e => .error e
          | .ok (vs, r') => .ok (.arr vs, r')
      else if c!"null" <+: s then .ok (.null, s.drop 4)
      else if c!"true" <+: s then .ok (.bool true, s.drop 4)
      else if c!"false" <+: s then .ok (.bool false, s.drop 5)
      else if c!"NaN" <+: s ∨ c!"Infinity" <+: s ∨ c!"-Infinity" <+: s then .error .other
      else jsonNumber s
/-- `JSONArray`, decoder.py: the elements up to and including the closing bracket (at least one) -/
def jsonElems : Nat → Str → Except PyErr (List Json × Str)
  | 0, _ => .error .fuel
  | n + 1, s =>
    match jsonVal n (skipWs s) with
    | .error e => .error e
    | .ok (v, r) =>
      match skipWs r with
      | [] => .error .valueError
      | c :: r' =>
        if c = ']' then .ok ([v], r')
        else if c = ',' then
          match jsonElems n r' with
          | .error e => .error e
          | .ok (vs, r'') => .ok (v :: vs, r'')
        else .error .valueError
/-- `JSONObject`, decoder.py: the members up to and including the closing brace (at least one) -/
def jsonMembers : Nat → Str → Except PyErr (List (Str × Json) × Str)
  | 0, _ => .error .fuel
  | n + 1, s =>
    match skipWs s with
    | [] => .error .valueError
    | q :: s1 =>
      if q = '"' then
        match scanString (s1.length + 1) s1 with
        | .error e => .error e
        | .ok (k, s2) =>
          match skipWs s2 with
          | [] => .error .valueError
          | q2 :: s3 =>
            if q2 = ':' then
              match jsonVal n (skipWs s3) with
              | .error e => .error e
              | .ok (v, r) =>
                match skipWs r with
                | [] => .error .valueError
                | c :: r' =>
                  if c = '}' then .ok ([(k, v)], r')
                  else if c = ',' then
                    match jsonMembers n r' with
                    | .error e => .error e
                    | .ok (kvs, r'') => .ok ((k, v) :: kvs, r'')
                  else .error .valueError
            else .error .valueError
      else .error .valueError
end

/-- `json.loads(s)` -/
def jsonLoads (s : Str) : Except PyErr Json :=
  if s.head? = some (Char.ofNat 0xfeff) then .error .valueError
  else
    match jsonVal (2 * s.length + 1) (skipWs s) with
    | .error e => .error e
    | .ok (v, r) => if skipWs r = [] then .ok v else .error .valueError

/-- a line break and indentation, encoder.py `newline_indent` -/
def nlIndent (k : Nat) : Str := '\n' :: List.replicate k ' '

mutual
/-- `json.dumps(v, indent=4)` at indentation `k`, encoder.py `_iterencode` -/
def Json.pretty : Nat → Json → Str
  | _, .null => c!"null"
  | _, .bool true => c!"true"
  | _, .bool false => c!"false"
  | _, .int i => intStr i
  | _, .str s => jsonStr s
  | _, .arr [] => c!"[]"
  | k, .arr (x :: l) => '[' :: (nlIndent (k + 4) ++ Json.prettyArr (k + 4) (x :: l) ++ nlIndent k ++ [']'])
  | _, .obj [] => c!"{}"
  | k, .obj (e :: l) => '{' :: (nlIndent (k + 4) ++ Json.prettyObj (k + 4) (e :: l) ++ nlIndent k ++ ['}'])
def Json.prettyArr : Nat → List Json → Str
  | _, [] => []
  | k, [x] => x.pretty k
  | k, x :: y :: t => x.pretty k ++ (',' :: (nlIndent k ++ Json.prettyArr k (y :: t)))
def Json.prettyObj : Nat → List (Str × Json) → Str
  | _, [] => []
  | k, [(n, v)] => jsonStr n ++ (':' :: ' ' :: v.pretty k)
  | k, (n, v) :: e :: t => jsonStr n ++ (':' :: ' ' :: (v.pretty k ++ (',' :: (nlIndent k ++ Json.prettyObj k (e :: t)))))
end

/-- `json.dumps(v, indent=4)` -/
def Json.dumpsIndent (j : Json) : Str := j.pretty 0

end Verif
