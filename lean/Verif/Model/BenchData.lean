import Verif.Model.Bench

/-!
The data sets of the benchmarks: `foreign_exchange_2007`, `weather` and `synth` of `benchmarks/benchlib/standard_tester.py`, and `data/synth/mkdata.py`. Reading the
files is not modelled: the functions here take what was read. Missing values of a pandas column are `none`, as are results that are not finite numbers.
-/

namespace Verif

/-- the slices of `holdout`, standard_tester.py 88-93: begin and end -/
def fxHoldout (col : String) : ℕ × ℕ :=
  if col = "CAD" then (49, 99) else if col = "JPY" then (99, 149) else if col = "AUD" then (149, 199) else (0, 0)

/-- a table of `n` days with named columns -/
structure FxTable where
  n : ℕ
  columns : List (String × List (Option ℝ))

/-- `x[b:e] = v`, for an array `x` and a number `v` -/
def fillSlice {α : Type} (x : List α) (b e : ℕ) (v : α) : List α := x.mapIdx fun i y => if b ≤ i ∧ i < e then v else y

/-- `x[mask] = v` -/
def fillMask {α : Type} (x : List α) (mask : List Bool) (v : α) : List α := x.mapIdx fun i y => if mask.getD i false then v else y

/-- `np.flatnonzero` of an array of booleans -/
def flatTrue (x : List Bool) : List ℕ := (List.range x.length).filter fun i => x.getD i false

/-- `x[b:e]` -/
def pySlice {α : Type} (x : List α) (b e : ℕ) : List α := (x.take e).drop b

/-- `np.reciprocal` -/
noncomputable def reciprocal (v : Option ℝ) : Option ℝ := floatDiv (some 1) v

/-- `holdin[col]`, standard_tester.py 95-99 -/
def fxHoldin (n : ℕ) (col : String × List (Option ℝ)) : List ℕ :=
  let select := List.replicate n true
  let select := fillMask select (col.2.map Option.isNone) false
  let select := fillSlice select (fxHoldout col.1).1 (fxHoldout col.1).2 false
  flatTrue select

/-- `foreign_exchange_2007`, standard_tester.py 83-115, on the rows of 2007: `xss`, `yss`, `test_xss` and `test_yss`. (`fx2007[col][holdin[col]]` selects rows by
position, as the labels are dates.) -/
noncomputable def fxSplit (t : FxTable) : List (List ℕ) × List (List (Option ℝ)) × List (List ℕ) × List (List (Option ℝ)) :=
  let allIxs := List.range t.n
  (t.columns.map fun c => (fxHoldin t.n c).map fun i => allIxs.getD i 0,
   t.columns.map fun c => (fxHoldin t.n c).map fun i => reciprocal (c.2.getD i none),
   t.columns.map fun c => pySlice allIxs (fxHoldout c.1).1 (fxHoldout c.1).2,
   t.columns.map fun c => (pySlice c.2 (fxHoldout c.1).1 (fxHoldout c.1).2).map reciprocal)

open Classical in
/-- one sensor of `weather`, standard_tester.py 131-146: the times `x` and temperatures `y` of the two files, the expected number of missing temperatures (written as
-1), and the time interval to hold out. The result is `xss`, `yss`, `test_xss`, `test_yss` of the sensor. `pd.concat(…, join='inner')` pairs the rows with the same
number. -/
noncomputable def weatherSensor (x y : List ℝ) (expectedNa : ℕ) (hold : Option (ℝ × ℝ)) : Except PyErr (List ℝ × List ℝ × List ℝ × List ℝ) :=
  if (x.filter fun t => decide (t = -1)).length ≠ 0 then .error .assertionError
  else if (y.filter fun t => decide (t = -1)).length ≠ expectedNa then .error .assertionError
  else
    let y : List (Option ℝ) := y.map fun t => if t = -1 then none else some t
    let xy : List (ℝ × ℝ) := (x.zip y).filterMap fun p => p.2.map fun t => (p.1, t)
    match hold with
    | none => .ok (xy.map Prod.fst, xy.map Prod.snd, [], [])
    | some (a, b) =>
      let sel : ℝ × ℝ → Bool := fun p => decide (a ≤ p.1 ∧ p.1 ≤ b)
      .ok ((xy.filter fun p => !sel p).map Prod.fst, (xy.filter fun p => !sel p).map Prod.snd, (xy.filter sel).map Prod.fst, (xy.filter sel).map Prod.snd)

/-- the sensors of `weather` with the expected numbers of missing values and the intervals held out, standard_tester.py 119-121 -/
noncomputable def weatherSensors : List (String × ℕ × Option (ℝ × ℝ)) :=
  [("bra", 100, none), ("cam", 0, some (10.2, 10.8)), ("chi", 15, some (13.5, 14.2)), ("sot", 1002, none)]

/-- the loop of `weather`, standard_tester.py 125-148, for the files `f sensor` -/
noncomputable def weather (f : String → List ℝ × List ℝ) : Except PyErr (List (List ℝ × List ℝ × List ℝ × List ℝ)) :=
  mapExcept (fun s => weatherSensor (f s.1).1 (f s.1).2 s.2.1 s.2.2) weatherSensors

/-- a point of the plane with the value observed there, from one row of `xss[d]` and `yss[d]` -/
abbrev SynthRow := (ℝ × ℝ) × ℝ

open Classical in
/-- `synth`, standard_tester.py 151-167: the rows of all outputs in, training and test rows out. An empty list has no last element. -/
noncomputable def synthSplit (rows : List (List SynthRow)) : Except PyErr (List (List SynthRow) × List (List SynthRow)) :=
  match rows.getLast? with
  | none => .error .indexError
  | some last =>
    let sel : SynthRow → Bool := fun r => decide (0.5 ≤ r.1.1 ∧ 0.5 ≤ r.1.2)
    .ok (rows.dropLast ++ [last.filter fun r => !sel r], List.replicate 4 [] ++ [last.filter sel])

/-- `np.linalg.cholesky(K)`: the lower triangular factor, computed from the lower triangle of `K` -/
noncomputable def npCholesky (K : Arr2 ℝ) : Except PyErr (Arr2 ℝ) :=
  if K.rows ≠ K.cols then .error .linAlgError
  else do
    let U ← cholesky K.rows fun i j => K.get j i
    return Arr2.of K.rows K.rows fun i j => if j ≤ i then U.get j i else 0

/-- mkdata.py 19-26: the outputs sampled at the inputs `Xs` with the standard normal numbers `z`, before `reshape`, and the covariance `K` -/
noncomputable def synthSample (fk : FK) (Xs : List (Arr2 ℝ)) (z : List ℝ) : Except PyErr (Arr2 ℝ × List ℝ) := do
  let K ← kernelFromIndices Xs Xs fk
  let K := K.add (npDiagMat (vmk K.rows fun _ => 1 / 10))
  let L ← npCholesky K
  return (K, vmk L.rows fun i => ∑ j ∈ Finset.range L.cols, L.get i j * z.getD j 0)

/-- `gen_random_k`, standard_tester.py 444-451: two kernels shared by five outputs and one of its own for each -/
noncomputable def genRandomK (rand : ℕ → ℕ → ℕ → ℝ) : Except PyErr FK :=
  fkNew rand ⟨some 5, some [], some [], some [.rbf 5 none, .rbf 0.5 none], some (List.replicate 5 (.rbf 2 none)), none⟩

/-- mkdata.py 10-26, for the numbers `v0` and `v1` drawn for `coreg_vecs`, the inputs `Xs` and the standard normal numbers `z` -/
noncomputable def mkData (rand : ℕ → ℕ → ℕ → ℝ) (v0 v1 : ℕ → ℝ) (Xs : List (Arr2 ℝ)) (z : List ℝ) : Except PyErr (Arr2 ℝ × List ℝ) := do
  let fk ← genRandomK rand
  let fk := { fk with coregVecs := (fk.coregVecs.set 0 (Arr2.of 1 5 fun _ j => v0 j)).set 1 (Arr2.of 1 5 fun _ j => v1 j) }
  let fk ← fk.setInputDim 2
  synthSample fk Xs z

end Verif
