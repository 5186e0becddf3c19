import Verif.Spec.Optimization
import Mathlib.Order.Interval.Finset.Nat
import Mathlib.Data.List.Basic

/-! Specification of the curves and tables of the benchmarks. -/

namespace Verif

/-- the mean of the last `n` of the numbers up to number `i`, or of all of them if there are fewer -/
noncomputable def windowMean (a : List ℝ) (n i : ℕ) : ℝ := (∑ j ∈ Finset.Icc (i + 1 - n) i, a.getD j 0) / (min (i + 1) n : ℕ)

/-- the number without its fractional part -/
noncomputable def towardZero (x : ℝ) : ℝ := if x < 0 then -(⌊-x⌋ : ℝ) else (⌊x⌋ : ℝ)

/-- of `n` columns with the means `key` (`none` if one is not a number), `b` is the first one with the least mean; means that are not numbers are passed over,
but if the first one is not a number then it is that column -/
def Emphasised (n : ℕ) (key : ℕ → Option ℝ) (b : ℕ) : Prop :=
  b < n ∧ ((key 0 = none ∧ b = 0) ∨ (key 0 ≠ none ∧ ∃ x, key b = some x ∧ ∀ i < n, ∀ y, key i = some y → x ≤ y ∧ (i < b → x < y)))

/-- an entry of the table -/
def cellText (mean se : List Char) : List Char := "$".toList ++ mean ++ "$ ($".toList ++ se ++ "$)".toList

/-- an entry of the table in bold -/
def boldText (mean se : List Char) : List Char := "$\\textbf{".toList ++ mean ++ "}$ ($\\textbf{".toList ++ se ++ "}$)".toList

/-- a row of the table with `n` columns, of which number `b` is in bold; `text` are the texts of the two numbers of a column -/
def rowText (metric : String) (n : ℕ) (text : ℕ → List Char × List Char) (b : ℕ) : List Char :=
  List.intercalate " & ".toList (metric.toList :: (List.range n).map fun c => if c = b then boldText (text c).1 (text c).2 else cellText (text c).1 (text c).2) ++ "\\\\\n".toList

/-- what is above the rows -/
def tableHead (cols : List String) : List Char :=
  "\\begin{tabular}{l".toList ++ List.replicate cols.length 'c' ++ "}\\toprule\nMetric & ".toList ++ List.intercalate " & ".toList (cols.map String.toList) ++
    "\\\\\n\\midrule\n".toList

/-- what is below the rows -/
def tableFoot : List Char := "\n\\bottomrule\n\\end{tabular}\n".toList

end Verif
