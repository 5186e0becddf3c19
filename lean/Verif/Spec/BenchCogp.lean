import Verif.Model.BenchCogp
import Verif.Spec.Noaa

/-! Vocabulary for C124: how Matlab's `disp` prints numbers, and the output of COGP. -/

namespace Verif

/-- The digits of a number that is printed as `whole`, `whole.frac`, or one of these with an exponent: `e-dd` (`true`) or `e+dd` (`false`). -/
structure Printed where
  whole : List Char
  frac : List Char
  exp : Option (Bool × List Char)

/-- how it is printed -/
def Printed.text (p : Printed) : List Char :=
  p.whole ++ ((if p.frac = [] then [] else '.' :: p.frac) ++
    match p.exp with
    | none => []
    | some (neg, ds) => 'e' :: (if neg then '-' else '+') :: ds)

/-- the number it stands for -/
noncomputable def Printed.value (p : Printed) : ℝ :=
  (decimal p.whole + decimal p.frac / 10 ^ p.frac.length) *
    match p.exp with
    | none => 1
    | some (neg, ds) => (10 : ℝ) ^ (if neg then -decimal ds else decimal ds)

/-- there are digits where there should be -/
def Printed.Valid (p : Printed) : Prop := Numeral p.whole ∧ (∀ c ∈ p.frac, IsDigit c) ∧ ∀ neg ds, p.exp = some (neg, ds) → Numeral ds

/-- blanks and ends of lines, at least one -/
def Blank (w : List Char) : Prop := w ≠ [] ∧ ∀ c ∈ w, c = ' ' ∨ c = '\n'

/-- a minus sign, or nothing -/
def minusSign (neg : Bool) : List Char := if neg then ['-'] else []

/-- the number printed, with its sign -/
noncomputable def signedValue (neg : Bool) (p : Printed) : ℝ := if neg then -p.value else p.value

/-- What COGP prints for one measure: a label, the mean and the standard error, each on its own line. `blanks` are the three texts around the numbers. -/
structure Measure where
  neg : Bool
  mean : Printed
  stderr : Printed
  before : List Char
  between : List Char
  after : List Char

/-- all is as it should be -/
def Measure.Valid (m : Measure) : Prop := m.mean.Valid ∧ m.stderr.Valid ∧ Blank m.before ∧ Blank m.between ∧ Blank m.after

/-- the text of a measure -/
def Measure.text (label : String) (m : Measure) : List Char :=
  ("mean/stderr " ++ label).toList ++ (m.before ++ (minusSign m.neg ++ (m.mean.text ++ (m.between ++ (m.stderr.text ++ m.after)))))

/-- `label` does not occur in `t` before position `n` -/
def NotBefore (label t : List Char) (n : ℕ) : Prop := ∀ j < n, ¬ label <+: t.drop j

end Verif
