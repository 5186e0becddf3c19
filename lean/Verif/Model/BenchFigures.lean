import Verif.Model.Bench

/-! Model of the functions behind the published figures and tables: `/repo/benchmarks/pictures/fxmetrics.py` (`moving_average`, `div_rolled_max`) and
`/repo/benchmarks/benchlib/standard_tester.py` (`statprint`, `statsline`, `latex_table`). Simplifications: a float is a real number or not finite (`none`), lengths of windows
are not negative, and the texts of numbers are given by an arbitrary function (`NumText`). -/

namespace Verif

/-- `np.add.accumulate(a, dtype=float)`. fxmetrics.py:42 -/
noncomputable def addAccumulate (a : List ℝ) : List ℝ := vmk a.length fun i => (a.take (i + 1)).sum

/-- `x[n:]`. fxmetrics.py:43-44 -/
def sliceFrom (x : List ℝ) (n : ℕ) : List ℝ := x.drop n

/-- `x[:-n]`; note that `x[:-0]` is empty. fxmetrics.py:43 -/
def sliceToEnd (x : List ℝ) (n : ℕ) : List ℝ := if n = 0 then [] else x.take (x.length - n)

/-- `x[n:] = v`: `v` has as many entries as the slice, or one. fxmetrics.py:43 -/
def assignFrom (x : List ℝ) (n : ℕ) (v : List ℝ) : Except PyErr (List ℝ) :=
  if v.length = (x.drop n).length then .ok (x.take n ++ v)
  else if v.length = 1 then .ok (x.take n ++ (x.drop n).map fun _ => v.getD 0 0)
  else .error .valueError

/-- `x[:n] /= d`: in place, so that only `d` may be broadcast. fxmetrics.py:45 -/
noncomputable def divideTo (x : List ℝ) (n : ℕ) (d : List ℝ) : Except PyErr (List ℝ) :=
  if d.length = (x.take n).length then .ok (List.zipWith (· / ·) (x.take n) d ++ x.drop n)
  else if d.length = 1 then .ok ((x.take n).map (· / d.getD 0 0) ++ x.drop n)
  else .error .valueError

/-- `moving_average(a, n)`. fxmetrics.py:41-46 -/
noncomputable def movingAverage (a : List ℝ) (n : ℕ) : Except PyErr (List ℝ) := do
  let sums := addAccumulate a
  let diff ← broadcast2 (· - ·) (sliceFrom sums n) (sliceToEnd sums n)
  let sums ← assignFrom sums n diff
  let sums := sums.take n ++ (sums.drop n).map fun x => x / (n : ℝ)
  divideTo sums n (vmk n fun i => (i + 1 : ℝ))

/-- `np.maximum.accumulate(x)`: each entry is the maximum of the one before in the result and the one of `x`. fxmetrics.py:51 -/
noncomputable def maximumAccumulate : List ℝ → List ℝ
  | [] => []
  | x :: xs => xs.scanl max x

/-- `div_rolled_max(a, n)`. fxmetrics.py:49-52 -/
noncomputable def divRolledMax (a : List ℝ) (n : ℕ) : Except PyErr (List ℝ) := do
  let ma ← movingAverage a n
  return maximumAccumulate ma

/-! ### tables -/

/-- the text of a number in a format. -/
abbrev NumText := String → Option ℝ → List Char

/-- `statprint(x, fmt, flank)`: two numbers, the second in parentheses, each between two copies of `flank`; further numbers are ignored by `str.format`, missing ones are an
`IndexError`. standard_tester.py:392-395 -/
def statprint (F : NumText) (x : List (Option ℝ)) (fmt : String := "10.4f") (flank : List Char := []) : Except PyErr (List Char) :=
  match x with
  | a :: b :: _ => .ok (flank ++ F fmt a ++ flank ++ (" (".toList ++ flank ++ F fmt b ++ flank ++ ")".toList))
  | _ => .error .indexError

/-- `sep.join(l)` -/
def joinChars (sep : List Char) : List (List Char) → List Char
  | [] => []
  | [x] => x
  | x :: y :: l => x ++ sep ++ joinChars sep (y :: l)

/-- `statsline(ls)`. standard_tester.py:398-402 -/
def statsline (F : NumText) (ls : List (List (Option ℝ))) : Except PyErr (List Char) := do
  let combined ← mapExcept (fun p : String × List (Option ℝ) => do
    let res ← statprint F p.2
    return p.1.toList ++ " ".toList ++ res) (["time", "smse", "nlpd"].zip ls)
  return joinChars " ".toList combined

/-- `s.split(c)`: the pieces between occurrences of `c` -/
def splitChar (c : Char) : List Char → List (List Char)
  | [] => [[]]
  | x :: xs =>
    if x = c then [] :: splitChar c xs
    else match splitChar c xs with
      | [] => [[x]]
      | p :: ps => (x :: p) :: ps

/-- `a < b` for floats: never if one of them is not a number -/
noncomputable def floatLt : Option ℝ → Option ℝ → Bool
  | some a, some b => decide (a < b)
  | _, _ => false

/-- one step of `min` with a key: a later entry replaces the best so far if its key is smaller -/
noncomputable def minStep (keys : List (Option ℝ)) (best r : ℕ) : ℕ := if floatLt (keys.getD r none) (keys.getD best none) then r else best

/-- `min(range(len(results)), key=lambda r: results[r][0])` for the keys `results[r][0]`. standard_tester.py:419 -/
noncomputable def minKey (keys : List (Option ℝ)) : Except PyErr ℕ :=
  if keys = [] then .error .valueError else .ok ((List.range keys.length).foldl (minStep keys) 0)

/-- `int(x)`: toward zero, a `ValueError` if `x` is not a number. standard_tester.py:422 -/
noncomputable def intOf : Option ℝ → Except PyErr (Option ℝ)
  | some x => .ok (some (if 0 ≤ x then (⌊x⌋ : ℝ) else (⌈x⌉ : ℝ)))
  | none => .error .valueError

/-- what is done with the text of the best entry: `mean, space, var, end = (x for x in s.split('$') if x)`. standard_tester.py:424-428 -/
def boldface (s : List Char) : Except PyErr (List Char) :=
  match (splitChar '$' s).filter (· ≠ []) with
  | [mean, space, var, rest] => .ok ("$\\textbf{".toList ++ mean ++ "}$".toList ++ space ++ ("$\\textbf{".toList ++ var ++ "}$".toList) ++ rest)
  | _ => .error .valueError

/-- `r[0]`. standard_tester.py:419 -/
def firstOf : List (Option ℝ) → Except PyErr (Option ℝ)
  | [] => .error .indexError
  | a :: _ => .ok a

/-- the numbers as they are written: integers for the seconds. standard_tester.py:421-422 -/
noncomputable def converted (fmt : String) (results : List (List (Option ℝ))) : Except PyErr (List (List (Option ℝ))) :=
  if fmt = "d" then mapExcept (fun r => mapExcept intOf r) results else .ok results

/-- one row of the table. standard_tester.py:418-430 -/
noncomputable def tableRow (F : NumText) (metric fmt : String) (results : List (List (Option ℝ))) : Except PyErr (List Char) := do
  let keys ← mapExcept firstOf results
  let best ← minKey keys
  let results ← converted fmt results
  let stringified ← mapExcept (fun x => statprint F x fmt "$".toList) results
  let b ← boldface (stringified.getD best [])
  return joinChars " & ".toList (metric.toList :: stringified.set best b) ++ "\\\\\n".toList

/-- `zip(*cols)`: as many rows as the shortest column has entries -/
def zipStar (cols : List (List (List (Option ℝ)))) : List (List (List (Option ℝ))) :=
  match (cols.map List.length).min? with
  | none => []
  | some k => vmk k fun i => cols.map fun c => c.getD i []

/-- the text written by `latex_table`. standard_tester.py:404-437 -/
noncomputable def latexTable (F : NumText) (cols : List String) (colResults : List (List (List (Option ℝ)))) : Except PyErr (List Char) := do
  let rows ← mapExcept (fun p : (String × String) × List (List (Option ℝ)) => tableRow F p.1.1 p.1.2 p.2)
    ((["seconds", "SMSE", "NLPD"].zip ["d", ".2f", ".2f"]).zip (zipStar colResults))
  let begin := "\\begin{tabular}{l".toList ++ List.replicate cols.length 'c' ++ "}\\toprule\n".toList ++
    ("Metric & ".toList ++ joinChars " & ".toList (cols.map String.toList) ++ "\\\\\n".toList) ++ "\\midrule\n".toList
  return begin ++ rows.flatten ++ "\n\\bottomrule\n\\end{tabular}\n".toList

end Verif
