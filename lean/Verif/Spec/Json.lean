/-
JSON text (RFC 8259) without floats: which texts denote which value.
-/
import Verif.Model.Jabmod

namespace Verif.Spec
open Verif

/-- blank space: any sequence of the four JSON whitespace characters -/
def Blank (w : Str) : Prop := ∀ c ∈ w, c = ' ' ∨ c = '\t' ∨ c = '\n' ∨ c = '\r'

/-- `d` is a hexadecimal digit, in either case, of value `k` -/
def HexDigit (d : Char) (k : Nat) : Prop :=
  k < 16 ∧ (c!"0123456789abcdef"[k]? = some d ∨ c!"0123456789ABCDEF"[k]? = some d)

/-- `s` is the escape `\uXXXX` with the number `n` -/
def UnitText (n : Nat) (s : Str) : Prop :=
  ∃ a b c d ka kb kc kd, HexDigit a ka ∧ HexDigit b kb ∧ HexDigit c kc ∧ HexDigit d kd ∧
    n = 4096 * ka + 256 * kb + 16 * kc + kd ∧ s = ['\\', 'u', a, b, c, d]

/-- the two-character escapes -/
def ShortText (c : Char) (s : Str) : Prop :=
  (c, s) ∈ [('"', c!"\\\""), ('\\', c!"\\\\"), ('/', c!"\\/"), (Char.ofNat 8, c!"\\b"), (Char.ofNat 12, c!"\\f"), ('\n', c!"\\n"),
    ('\r', c!"\\r"), ('\t', c!"\\t")]

/-- a character in a string literal: as it is (if it is no control character, quote or backslash), or escaped: by one of the two-character
escapes, by its number, or by the numbers of its two UTF-16 surrogates -/
def CharText (c : Char) (s : Str) : Prop :=
  (s = [c] ∧ c ≠ '"' ∧ c ≠ '\\' ∧ 32 ≤ c.toNat) ∨ ShortText c s ∨ UnitText c.toNat s ∨
  ∃ hi lo s1 s2, UnitText hi s1 ∧ UnitText lo s2 ∧ 0xd800 ≤ hi ∧ hi ≤ 0xdbff ∧ 0xdc00 ≤ lo ∧ lo ≤ 0xdfff ∧
    c.toNat = 0x10000 + ((hi - 0xd800) * 1024 + (lo - 0xdc00)) ∧ s = s1 ++ s2

/-- an integer: decimal, without leading zeros; `-0` is allowed -/
def IntText (i : Int) (s : Str) : Prop := s = intStr i ∨ (i = 0 ∧ s = c!"-0")

/-- the inside of a string literal -/
inductive StrText : Str → Str → Prop
  | nil : StrText [] []
  | cons (c : Char) (s a t : Str) : CharText c a → StrText s t → StrText (c :: s) (a ++ t)

mutual
/-- `TextOf j s`: the text `s` is a way of writing the value `j`, with blanks wherever JSON allows them -/
def TextOf : Json → Str → Prop
  | .null, s => s = c!"null"
  | .bool true, s => s = c!"true"
  | .bool false, s => s = c!"false"
  | .int i, s => IntText i s
  | .str x, s => ∃ t, StrText x t ∧ s = '"' :: (t ++ ['"'])
  | .arr l, s => ∃ b, ElemsText l b ∧ s = '[' :: (b ++ [']'])
  | .obj l, s => ∃ b, MembersText l b ∧ s = '{' :: (b ++ ['}'])
def ElemsText : List Json → Str → Prop
  | [], s => Blank s
  | [x], s => ∃ a t b, Blank a ∧ TextOf x t ∧ Blank b ∧ s = a ++ t ++ b
  | x :: y :: l, s => ∃ a t b r, Blank a ∧ TextOf x t ∧ Blank b ∧ ElemsText (y :: l) r ∧ s = a ++ t ++ b ++ ',' :: r
def MembersText : List (Str × Json) → Str → Prop
  | [], s => Blank s
  | [(k, v)], s => ∃ a q a2 a3 t b, Blank a ∧ StrText k q ∧ Blank a2 ∧ Blank a3 ∧ TextOf v t ∧ Blank b ∧
      s = a ++ '"' :: (q ++ '"' :: (a2 ++ ':' :: (a3 ++ t ++ b)))
  | (k, v) :: e :: l, s => ∃ a q a2 a3 t b r, Blank a ∧ StrText k q ∧ Blank a2 ∧ Blank a3 ∧ TextOf v t ∧ Blank b ∧
      MembersText (e :: l) r ∧ s = a ++ '"' :: (q ++ '"' :: (a2 ++ ':' :: (a3 ++ t ++ b ++ ',' :: r)))
end

mutual
/-- no object has a key twice (true of every Python value) -/
def DistinctKeys : Json → Prop
  | .arr l => DistinctKeysArr l
  | .obj l => (l.map Prod.fst).Nodup ∧ DistinctKeysObj l
  | .null => True
  | .bool _ => True
  | .int _ => True
  | .str _ => True
def DistinctKeysArr : List Json → Prop
  | [] => True
  | x :: t => DistinctKeys x ∧ DistinctKeysArr t
def DistinctKeysObj : List (Str × Json) → Prop
  | [] => True
  | (_, v) :: t => DistinctKeys v ∧ DistinctKeysObj t
end

mutual
/-- the value of a JSON text: an object in which a key is repeated keeps its place and gets the last value, as a Python dict does -/
def asDicts : Json → Json
  | .arr l => .arr (asDictsArr l)
  | .obj l => .obj ((asDictsObj l).foldl (fun d kv => Dict.set d kv.1 kv.2) [])
  | .null => .null
  | .bool b => .bool b
  | .int i => .int i
  | .str s => .str s
def asDictsArr : List Json → List Json
  | [] => []
  | x :: t => asDicts x :: asDictsArr t
def asDictsObj : List (Str × Json) → List (Str × Json)
  | [] => []
  | (k, v) :: t => (k, asDicts v) :: asDictsObj t
end

/-- the dictionaries of a model have distinct keys (true of every Python dict) -/
structure KeysOk (m : Jabmod) : Prop where
  prefs : ∀ vl ∈ m.votelines, Dict.WF vl.prefs
  cands : Dict.WF m.candidates
  mdata : Dict.WF m.metadata
  values : ∀ e ∈ m.metadata, DistinctKeys e.2

end Verif.Spec
