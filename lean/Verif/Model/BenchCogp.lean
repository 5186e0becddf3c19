import Verif.Model.Noaa
import Mathlib.Analysis.SpecialFunctions.Pow.Real

/-!
How `benchmarks/benchlib/standard_tester.py` reads the results that the Matlab program COGP prints (`cogp_fx2007` 322-330, `cogp_weather` 371-379 and `cogp_synth` 494-502, which
do the same). Running the program and the tables it writes to files are not modelled: its output is an arbitrary text. Python's `\d` and `\s` are taken for ASCII characters.
-/

namespace Verif

/-- `t[t.find(s):]` if `s` occurs in `t`: the part of `t` from the first occurrence on -/
def findFrom (s : List Char) : List Char → Option (List Char)
  | [] => if s = [] then some [] else none
  | c :: t => if s.isPrefixOf (c :: t) then some (c :: t) else findFrom s t

/-- `t[t.find(s):]`; if `s` does not occur then `find` returns `-1`, and the last character is left. standard_tester.py:322,325,328 -/
def fromFound (s t : List Char) : List Char := (findFrom s t).getD (t.drop (t.length - 1))

/-- `([-+e\.\d]*)` -/
def reNumeral : ReItem := ⟨fun c => c == '-' || c == '+' || c == 'e' || c == '.' || reDigit c, 0, true, true⟩

/-- `\s*` -/
def reSpaces : ReItem := ⟨fun c => c == ' ' || c == '\n' || c == '\t' || c == '\r' || c == '\x0b' || c == '\x0c', 0, true, false⟩

/-- `'\D*([-+e\.\d]*)\s*([-+e\.\d]*)'`. standard_tester.py:323,326,329 -/
def cogpPattern : List ReItem := [reGap, reNumeral, reSpaces, reNumeral]

/-- digits with at most one point, at least one digit -/
noncomputable def mantissaOf (w : List Char) : Except PyErr ℝ :=
  let whole := w.takeWhile (· ≠ '.')
  let rest := (w.dropWhile (· ≠ '.')).drop 1
  if whole.all reDigit = true ∧ rest.all reDigit = true ∧ ¬ (whole = [] ∧ rest = []) then .ok (pyDigits whole + pyDigits rest / 10 ^ rest.length) else .error .valueError

/-- a sign, and what follows it -/
def signOf : List Char → Bool × List Char
  | '-' :: t => (true, t)
  | '+' :: t => (false, t)
  | t => (false, t)

/-- what stands behind the `e` -/
noncomputable def exponentOf (w : List Char) : Except PyErr ℝ :=
  if (signOf w).2.all reDigit = true ∧ (signOf w).2 ≠ [] then
    .ok ((10 : ℝ) ^ (if (signOf w).1 then -pyDigits (signOf w).2 else pyDigits (signOf w).2))
  else .error .valueError

/-- `float(w)` of a text of the characters `-+e.` and digits; an empty text, for example, raises. (Floats are real numbers.) standard_tester.py:324,327,330 -/
noncomputable def floatText (w : List Char) : Except PyErr ℝ := do
  let v ← mantissaOf ((signOf w).2.takeWhile (· ≠ 'e'))
  let e ← if (signOf w).2.dropWhile (· ≠ 'e') = [] then .ok 1 else exponentOf (((signOf w).2.dropWhile (· ≠ 'e')).drop 1)
  return (if (signOf w).1 then -1 else 1) * v * e

/-- the numbers after a label, and the text from the label on. standard_tester.py:322-324 -/
noncomputable def cogpStat (label ending : List Char) : Except PyErr ((ℝ × ℝ) × List Char) :=
  match reMatch cogpPattern (fromFound label ending) with
  | some [a, b] => do
    let m ← floatText a
    let s ← floatText b
    return ((m, s), fromFound label ending)
  | _ => .error .attributeError

/-- The results for time, SMSE and NLPD: mean and standard error. standard_tester.py:322-337 -/
noncomputable def cogpStats (mout : List Char) : Except PyErr (List (ℝ × ℝ)) := do
  let t ← cogpStat "mean/stderr times".toList mout
  let s ← cogpStat "mean/stderr smses".toList t.2
  let n ← cogpStat "mean/stderr nlpds".toList s.2
  return [t.1, s.1, n.1]

end Verif
