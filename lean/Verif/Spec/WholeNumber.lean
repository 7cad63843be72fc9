/-
Specification for C114: texts that stand for a whole number.
-/
import Verif.Py.Str

namespace Verif.Spec
variable [Uni]

/-- decimal digits, of any script, with single underscores between them, and the number they stand for -/
inductive NumberBody : Str → Nat → Prop
  | one (c : Char) (d : Nat) : decVal c = some d → NumberBody [c] d
  | next (t : Str) (n : Nat) (c : Char) (d : Nat) : NumberBody t n → decVal c = some d → NumberBody (t ++ [c]) (10 * n + d)
  | under (t : Str) (n : Nat) (c : Char) (d : Nat) : NumberBody t n → decVal c = some d → NumberBody (t ++ ['_', c]) (10 * n + d)

/-- a text that stands for a whole number: digits, with or without a sign in front of them and with blanks at both ends or none -/
def WholeNumber (s : Str) (i : Int) : Prop :=
  ∃ pre body post n, (∀ c ∈ pre, isSpace c = true) ∧ (∀ c ∈ post, isSpace c = true) ∧ NumberBody body n ∧
    ((s = pre ++ (body ++ post) ∧ i = n) ∨ (s = pre ++ ('+' :: body ++ post) ∧ i = n) ∨ (s = pre ++ ('-' :: body ++ post) ∧ i = -(n : Int)))

end Verif.Spec
