import Verif.Model.Interp

/-!
`data/noaa/clean.py`, the script that makes the weather station data set, from the tables that pandas read to the rows it exports. Unpacking and reading the files, printing
and the map are not modelled. Text is a list of characters. Python's `\d` and `\w` are taken for ASCII characters: other digits and letters do not occur in the files.
-/

namespace Verif

/-- one item of a regular expression without alternatives of different lengths: a class of characters, once (`many = false`, `lo = 1`) or repeated at least `lo` times, in
parentheses or not -/
structure ReItem where
  cls : Char → Bool
  lo : ℕ
  many : Bool
  group : Bool

/-- `re.match`: the longest repetition is tried first, then shorter ones. The result is the text of the groups; text after the match is ignored. -/
def reMatch : List ReItem → List Char → Option (List (List Char))
  | [], _ => some []
  | it :: its, s =>
    let run := (s.takeWhile it.cls).length
    let most := if it.many then run else min 1 run
    ((List.range (most + 1)).reverse.filter fun k => decide (it.lo ≤ k)).findSome? fun k =>
      (reMatch its (s.drop k)).map fun gs => if it.group then s.take k :: gs else gs

/-- `\d` -/
def reDigit (c : Char) : Bool := decide ('0' ≤ c ∧ c ≤ '9')

/-- `\W` -/
def reNonWord (c : Char) : Bool := !(reDigit c || decide ('a' ≤ c ∧ c ≤ 'z') || decide ('A' ≤ c ∧ c ≤ 'Z') || decide (c = '_'))

/-- `(\d+)` -/
def reDigits : ReItem := ⟨reDigit, 1, true, true⟩

/-- `\D` -/
def reSep : ReItem := ⟨fun c => !reDigit c, 1, false, false⟩

/-- `\D+` -/
def reSeps : ReItem := ⟨fun c => !reDigit c, 1, true, false⟩

/-- `\D*` -/
def reGap : ReItem := ⟨fun c => !reDigit c, 0, true, false⟩

/-- `\W+` -/
def reBlank : ReItem := ⟨reNonWord, 1, true, false⟩

/-- `(N|S)` and `(E|W)` -/
def reEither (a b : Char) : ReItem := ⟨fun c => decide (c = a ∨ c = b), 1, false, true⟩

/-- `p1`, clean.py 77-78 -/
def noaaDms : List ReItem :=
  [reDigits, reSep, reDigits, reSeps, reDigits, reGap, reEither 'N' 'S', reBlank, reDigits, reSep, reDigits, reSep, reDigits, reGap, reEither 'E' 'W']

/-- `p2`, clean.py 79 -/
def noaaDm : List ReItem := [reDigits, reSeps, reDigits, reSeps, reEither 'N' 'S', reBlank, reDigits, reSeps, reDigits, reSeps, reEither 'E' 'W']

/-- `float` of a string of digits -/
def pyDigits (w : List Char) : ℝ := w.foldl (fun v c => 10 * v + ((c.toNat - '0'.toNat : ℕ) : ℝ)) 0

/-- the entry of clean.py 103 -/
def noaaTypo : List Char := "47123'56\"N 120*12'24\"W".toList

/-- the latitude and longitude of a location, clean.py 83-111; `none` is `np.nan` -/
noncomputable def noaaLocation (s : List Char) : Option (ℝ × ℝ) :=
  match reMatch noaaDms s with
  | some [g1, g2, g3, g4, g5, g6, g7, g8] =>
    let lat := pyDigits g1 + pyDigits g2 / 60 + pyDigits g3 / 60 / 60
    let lat := lat * if g4 = ['N'] then 1 else -1
    let lon := pyDigits g5 + pyDigits g6 / 60 + pyDigits g7 / 60 / 60
    let lon := lon * if g8 = ['E'] then 1 else -1
    some (lat, lon)
  | _ =>
    match reMatch noaaDm s with
    | some [g1, g2, g3, g4, g5, g6] =>
      let lat := pyDigits g1 + pyDigits g2 / 60
      let lat := lat * if g3 = ['N'] then 1 else -1
      let lon := pyDigits g4 + pyDigits g5 / 60
      let lon := lon * if g6 = ['E'] then 1 else -1
      some (lat, lon)
    | _ =>
      if s = noaaTypo then some (47 + 23 / 60 + 56 / 3600, -1 * (120 + 12 / 60 + 24 / 3600))
      else none

/-- `pd.to_numeric` of a string of digits and points: no characters are `nan` -/
noncomputable def toNumeric (w : List Char) : Except PyErr (Option ℝ) :=
  if w = [] then .ok none
  else
    let whole := w.takeWhile fun c => decide (c ≠ '.')
    let rest := (w.dropWhile fun c => decide (c ≠ '.')).drop 1
    if '.' ∈ rest ∨ (whole = [] ∧ rest = []) then .error .valueError
    else .ok (some (pyDigits whole + pyDigits rest / 10 ^ rest.length))

/-- `str.replace(r'[^\d\.]', '')` and `pd.to_numeric`, clean.py 65-66 -/
noncomputable def cleanNumber (s : List Char) : Except PyErr (Option ℝ) := toNumeric (s.filter fun c => reDigit c || decide (c = '.'))

/-- a row of `climate` with the columns of clean.py 36-40 as `astype('str')` writes them: `nan` for a missing entry -/
structure ClimateRow where
  wban : ℕ
  values : List (List Char)

/-- a row of the exported table: `values` are `temp`, `dew`, `pressure`, `wind` and `time` -/
structure NoaaRow where
  wban : ℕ
  values : List ℝ
  position : Option (ℝ × ℝ)

/-- `climate.merge(stations, on='wban', how='left')`, clean.py 59: the rows of `climate` in order, each once for every row of `stations` with its number and without a
location if there is none -/
def leftJoin (climate : List ClimateRow) (stations : List (ℕ × List Char)) : List (ClimateRow × Option (List Char)) :=
  climate.flatMap fun c =>
    match stations.filter fun s => decide (s.1 = c.wban) with
    | [] => [(c, none)]
    | l => l.map fun s => (c, some s.2)

/-- clean.py 54-118, from the two tables to the exported rows: `stations.dropna()`, the join, the conversion of the numeric columns (which is done for all columns and rows
before any are dropped, and can only raise `ValueError`), `joined.dropna()`, and the positions -/
noncomputable def noaaClean (climate : List ClimateRow) (stations : List (ℕ × Option (List Char))) : Except PyErr (List NoaaRow) := do
  let stations := stations.filterMap fun s => s.2.map fun l => (s.1, l)
  let joined ← mapExcept (fun r => do
    let values ← mapExcept cleanNumber r.1.values
    return (r.1.wban, values, r.2)) (leftJoin climate stations)
  let joined := joined.filterMap fun r => do
    let values ← r.2.1.mapM id
    let loc ← r.2.2
    return (r.1, values, loc)
  return joined.map fun r => ⟨r.1, r.2.1, noaaLocation r.2.2⟩

end Verif
