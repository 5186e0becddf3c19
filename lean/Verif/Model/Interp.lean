import Verif.Model.NumpyUtil
import Mathlib.Algebra.Order.Floor.Ring
import Mathlib.Algebra.Order.Archimedean.Basic
import Mathlib.Data.Real.Archimedean

/-! `runlmc/approx/interpolation.py` and the part of `scipy.sparse.csr_matrix` it uses. -/

namespace Verif

/-! ### scipy CSR matrices -/

/-- A `scipy.sparse.csr_matrix`: shape and the three arrays. -/
structure Csr where
  rows : ℕ
  cols : ℕ
  indptr : List ℕ
  indices : List ℕ
  data : List ℝ

namespace Csr

/-- The format invariants scipy relies on (`check_format(full_check=True)`). -/
structure WF (A : Csr) : Prop where
  lenPtr : A.indptr.length = A.rows + 1
  zero : A.indptr.getD 0 0 = 0
  mono : ∀ i < A.rows, A.indptr.getD i 0 ≤ A.indptr.getD (i + 1) 0
  last : A.indptr.getD A.rows 0 = A.data.length
  lenIdx : A.indices.length = A.data.length
  idx : ∀ k < A.data.length, A.indices.getD k 0 < A.cols

/-- Entry `(i,j)` of the dense form (`toarray`): row `i` owns the stored positions
`indptr[i] ≤ k < indptr[i+1]`; duplicates add up. -/
noncomputable def get (A : Csr) (i j : ℕ) : ℝ :=
  ∑ k ∈ Finset.range A.data.length,
    if A.indptr.getD i 0 ≤ k ∧ k < A.indptr.getD (i + 1) 0 ∧ A.indices.getD k 0 = j then A.data.getD k 0 else 0

/-- `A.nnz`: `indptr[-1]` -/
def nnz (A : Csr) : ℕ := A.indptr.getLast?.getD 0

/-- stored entries of row `i`: `indptr[i+1] - indptr[i]` -/
def rowNnz (A : Csr) (i : ℕ) : ℕ := A.indptr.getD (i + 1) 0 - A.indptr.getD i 0

/-- the CSR matrix whose row `i` stores the (column, value) pairs `rs[i]` -/
def ofRows (c : ℕ) (rs : List (List (ℕ × ℝ))) : Csr :=
  { rows := rs.length, cols := c, indptr := 0 :: accumulate (rs.map List.length),
    indices := (rs.flatten).map Prod.fst, data := (rs.flatten).map Prod.snd }

/-- `csr_matrix((data, col_idx, np.arange(n + 1)), shape=(n, c))`: one stored entry per row -/
def single (c : ℕ) (cols : List ℕ) (data : List ℝ) : Csr :=
  { rows := data.length, cols := c, indptr := List.range (data.length + 1), indices := cols, data := data }

/-- `csr_matrix((r, c), dtype=float)`: no stored entries -/
def empty (r c : ℕ) : Csr := { rows := r, cols := c, indptr := vmk (r + 1) fun _ => 0, indices := [], data := [] }

open Classical in
/-- the canonical CSR matrix (columns sorted, no explicit zeros) with dense form `f` -/
noncomputable def ofFn (r c : ℕ) (f : ℕ → ℕ → ℝ) : Csr :=
  ofRows c (vmk r fun i => ((List.range c).filter fun j => decide (f i j ≠ 0)).map fun j => (j, f i j))

/-- `A + B` (scipy `csr_plus_csr` on canonical operands: canonical result, zero sums dropped) -/
noncomputable def add (A B : Csr) : Csr := ofFn A.rows A.cols fun i j => A.get i j + B.get i j

/-- `A.dot(B)` (`csr_matmat`, zero sums dropped; scipy may store the columns of a row in another order) -/
noncomputable def dot (A B : Csr) : Csr :=
  ofFn A.rows B.cols fun i j => ∑ k ∈ Finset.range A.cols, A.get i k * B.get k j

/-- `scipy.sparse.vstack` of matrices with `c` columns (dense contents; conversion to CSC keeps them) -/
noncomputable def vstack (c : ℕ) (As : List Csr) : Csr :=
  ofRows c (As.flatMap fun A => vmk A.rows fun i => (List.range c).map fun j => (j, A.get i j))

end Csr

/-! ### cubic_kernel -/

/-- one entry of the result of `cubic_kernel`, interpolation.py 49-52 (after the range check) -/
noncomputable def cubicEntry (x : ℝ) : ℝ :=
  let x := |x|
  if x ≤ 1 then ((1.5 * x - 2.5) * x) * x + 1
  else ((-0.5 * x + 2.5) * x - 4) * x + 2

open Classical in
/-- `cubic_kernel`, interpolation.py 21-53. -/
noncomputable def cubicKernel (x : List ℝ) : Except PyErr (List ℝ) :=
  if ∃ a ∈ x, |a| > 2 then .error .valueError else .ok (x.map cubicEntry)

/-! ### interp_cubic -/

/-- `np.clip`-like thresholding of one index, interpolation.py 106-108:
`coeff_idx[coeff_idx < 0] = 0; coeff_idx[coeff_idx >= grid_size] = grid_size - 1`, then scipy's cast to an index. -/
def clampIdx (size : ℕ) (c : ℤ) : ℕ :=
  let c := if c < 0 then 0 else c
  (if c ≥ size then (size : ℤ) - 1 else c).toNat

/-- `range(-2, 2)`, interpolation.py 105, 289, 301 -/
def convWindow : List ℤ := [-2, -1, 0, 1]

/-- `factors = (samples - grid[0]) / delta`, interpolation.py 98-99. (`delta = 0` gives NaN/inf in numpy and `0` here;
the theorems assume `delta ≠ 0`.) -/
noncomputable def interpFactor (grid : List ℝ) (s : ℝ) : ℝ :=
  (s - grid.getD 0 0) / (grid.getD 1 0 - grid.getD 0 0)

/-- interpolation.py 101-116: the loop `for conv_idx in range(-2, 2)` adding one CSR matrix per offset. -/
noncomputable def interpLoop (grid samples : List ℝ) : List ℤ → Csr → Except PyErr Csr
  | [], csr => .ok csr
  | conv :: rest, csr => do
    let factors := samples.map (interpFactor grid)
    let idxOfClosest := factors.map fun f => ⌊f⌋
    let distToClosest := factors.map fun f => f - (⌊f⌋ : ℝ)
    let coeffIdx := idxOfClosest.map fun c => clampIdx grid.length (c - conv)
    let data ← cubicKernel (distToClosest.map fun d => d + (conv : ℝ))
    interpLoop grid samples rest (csr.add (Csr.single grid.length coeffIdx data))

/-- `interp_cubic`, interpolation.py 56-116. The warning (94-96) has no effect on the result. -/
noncomputable def interpCubic (grid samples : NDArr ℝ) : Except PyErr Csr := do
  let gridSize ← grid.len
  if samples.data.length = 0 then return Csr.empty 0 gridSize
  else if grid.ndim ≠ 1 then .error .valueError
  else if samples.ndim ≠ 1 then .error .valueError
  else if gridSize < 4 then .error .valueError
  else interpLoop grid.data samples.data convWindow (Csr.empty samples.data.length gridSize)

/-! ### interp_bicubic -/

/-- interpolation.py 300-312: the inner loop over `xconv_idx` for the clamped y indices `ycoeff`. -/
noncomputable def bicubicX (gridx : List ℝ) (my : ℕ) (sx : List ℝ) (ycoeff : List ℕ) : List ℤ → Csr → Except PyErr Csr
  | [], csr => .ok csr
  | conv :: rest, csr => do
    let fx := sx.map (interpFactor gridx)
    let xcoeff := fx.map fun f => clampIdx gridx.length (⌊f⌋ - conv)
    let xdata ← cubicKernel (fx.map fun f => f - (⌊f⌋ : ℝ) + (conv : ℝ))
    let xcol := List.zipWith (fun a b => a * my + b) xcoeff ycoeff
    bicubicX gridx my sx ycoeff rest (csr.add (Csr.single (gridx.length * my) xcol xdata))

/-- interpolation.py 287-325: the outer loop over `yconv_idx`; `k` is `yconv_idx + 2`. -/
noncomputable def bicubicY (gridx gridy sx sy : List ℝ) (n : ℕ) : ℕ → List ℤ → List Csr → Csr → Except PyErr (List Csr × Csr)
  | _, [], xcsrs, ycsr => .ok (xcsrs, ycsr)
  | k, conv :: rest, xcsrs, ycsr => do
    let fy := sy.map (interpFactor gridy)
    let ycoeff := fy.map fun f => clampIdx gridy.length (⌊f⌋ - conv)
    let xcsr ← bicubicX gridx gridy.length sx ycoeff convWindow (Csr.empty n (gridx.length * gridy.length))
    let ydata ← cubicKernel (fy.map fun f => f - (⌊f⌋ : ℝ) + (conv : ℝ))
    let ycol := vmk n fun j => j + n * k
    bicubicY gridx gridy sx sy n (k + 1) rest (xcsrs ++ [xcsr]) (ycsr.add (Csr.single (n * 4) ycol ydata))

/-- `interp_bicubic`, interpolation.py 218-328. `gridx`, `gridy`, `samples` are ndarrays; a `samples` array that is not 2-D
with two columns is a ValueError after the emptiness test. -/
noncomputable def interpBicubic (gridx gridy samples : NDArr ℝ) : Except PyErr Csr :=
  let mx := gridx.data.length
  let my := gridy.data.length
  match samples.shape with
  | [] => .error .indexError                         -- samples.shape[0]
  | n :: sh =>
    if n = 0 then .ok (Csr.empty 0 (mx * my))
    else if gridx.ndim ≠ 1 then .error .valueError
    else if mx < 4 then .error .valueError
    else if gridy.ndim ≠ 1 then .error .valueError
    else if my < 4 then .error .valueError
    else if sh ≠ [2] then .error .valueError
    else do
      let sx := vmk n fun i => samples.data.getD (i * 2) 0
      let sy := vmk n fun i => samples.data.getD (i * 2 + 1) 0
      let (xcsrs, ycsr) ← bicubicY gridx.data gridy.data sx sy n 0 convWindow [] (Csr.empty n (n * 4))
      return ycsr.dot (Csr.vstack (mx * my) xcsrs)

/-! ### multi_interpolant -/

/-- `np.repeat(values, counts)` -/
def npRepeat {α : Type*} (values : List α) (counts : List ℕ) : List α :=
  (List.zipWith (fun v c => List.replicate c v) values counts).flatten

/-- `x[b:e] += v` (integers) -/
def addSlice (x : List ℕ) (b e : ℕ) (v : List ℕ) : List ℕ :=
  setSlice x b (List.zipWith (· + ·) (slice x b e) v)

/-- interpolation.py 153-176: assembling the CSR arrays of all outputs, given the per-output matrices `Ws` with
row counts `rowLens` and the common number `m` of columns. -/
noncomputable def assembleCsr (m : ℕ) (rowLens : List ℕ) (Ws : List Csr) : Except PyErr Csr := do
  let multioutGridSizes := vmk Ws.length fun i => i * m          -- np.arange(len(Xs)) * m
  let (rowBegins, rowEnds) ← beginEndIndices rowLens
  let order := rowEnds.getLast?.getD 0
  let colLens := Ws.map Csr.nnz
  let (colBegins, colEnds) ← beginEndIndices colLens
  let width := colEnds.getLast?.getD 0
  -- np.roll(np.add.accumulate([W.indptr[-1] for W in Ws]), 1); ind_starts[0] = 0
  let indStarts := 0 :: (roll1 (accumulate (Ws.map fun W => W.indptr.getLast?.getD 0))).tail
  let indPtr := npRepeat indStarts rowLens ++ [width]
  let data := npEmpty width
  let colIndices := npRepeat multioutGridSizes colLens
  let (indPtr, data, colIndices) :=
    ((rowBegins.zip rowEnds).zip ((colBegins.zip colEnds).zip Ws)).foldl
      (fun (s : List ℕ × List ℝ × List ℕ) t =>
        (addSlice s.1 t.1.1 t.1.2 t.2.2.indptr.dropLast,
         setSlice s.2.1 t.2.1.1 t.2.2.data,
         addSlice s.2.2 t.2.1.1 t.2.1.2 t.2.2.indices))
      (indPtr, data, colIndices)
  return { rows := order, cols := Ws.length * m, indptr := indPtr, indices := colIndices, data := data }

/-- evaluates a list of computations in order, stopping at the first exception -/
def mapExcept {α β : Type*} (f : α → Except PyErr β) : List α → Except PyErr (List β)
  | [] => .ok []
  | x :: xs => do let y ← f x; let ys ← mapExcept f xs; return y :: ys

/-- `X.ndim == 1 or X.shape[1] == 1`, interpolation.py 146 -/
def isOneDim (X : NDArr ℝ) : Except PyErr Bool :=
  if X.ndim = 1 then .ok true
  else match X.shape with
    | _ :: c :: _ => .ok (decide (c = 1))
    | _ => .error .indexError

/-- `multi_interpolant`, interpolation.py 119-176. -/
noncomputable def multiInterpolant (Xs : List (NDArr ℝ)) (grids : List (NDArr ℝ)) : Except PyErr Csr := do
  let lens ← mapExcept (fun g : NDArr ℝ => g.len) grids
  let m := lens.prod
  match Xs with
  | [] => .error .indexError                          -- Xs[0]
  | X0 :: _ =>
    let oneD ← isOneDim X0
    let Ws ← if oneD then
        match grids with
        | [] => .error .indexError
        | g :: _ => mapExcept (fun X => interpCubic g (NDArr.vec X.data)) Xs
      else
        match grids with
        | gx :: gy :: _ => mapExcept (fun X => interpBicubic gx gy X) Xs
        | _ => .error .indexError
    let rowLens ← mapExcept (fun X : NDArr ℝ => X.len) Xs
    assembleCsr m rowLens Ws

/-! ### autogrid -/

/-- the caller's `lo`, `hi` or `m` argument: `None`, a python list, or an ndarray (by reference: the list is the content
of the caller's array) -/
inductive GridArg where
  | none
  | list (v : List ℝ)
  | ndarray (v : List ℝ)

/-- the numbers in the argument, if any -/
def GridArg.vals : GridArg → Option (List ℝ)
  | .none => Option.none
  | .list v => some v
  | .ndarray v => some v

/-- `np.linspace(l, h, num)`: `num` points `l + i*(h-l)/(num-1)` -/
noncomputable def linspace (l h : ℝ) (num : ℕ) : List ℝ :=
  vmk num fun i => l + i * ((h - l) / ((num : ℝ) - 1))

/-- `X.min(axis=0)` / `X.max(axis=0)` of a 2-D array with at least one row; ValueError otherwise -/
noncomputable def axisReduce (f : ℝ → ℝ → ℝ) (X : Arr2 ℝ) : Except PyErr (List ℝ) :=
  if X.rows = 0 then .error .valueError
  else .ok (vmk X.cols fun j => (X.col j).tail.foldl f (X.get 0 j))

/-- elementwise `np.minimum` / `np.maximum` -/
def zip2 (f : ℝ → ℝ → ℝ) (a b : List ℝ) : List ℝ := List.zipWith f a b

/-- `int(x)`: truncation towards zero of a non-negative float -/
noncomputable def pyInt (x : ℝ) : ℕ := ⌊x⌋₊

/-- what `autogrid` returns, and what the caller's `m` argument holds afterwards -/
structure AutogridResult where
  grids : List (List ℝ)
  mAfter : GridArg

/-- the assertion `a is None or len(a) == P` -/
def GridArg.fits (P : ℕ) (a : GridArg) : Prop := ∀ v, a.vals = some v → v.length = P

/-- the caller's argument after `m = np.asarray(m)` and an in-place update of `m` to `new` (interpolation.py 205, 212) -/
def GridArg.afterUpdate (m : GridArg) (new : List ℝ) : GridArg :=
  match m with
  | .ndarray _ => .ndarray new
  | a => a

open Classical in
/-- `autogrid`, interpolation.py 179-215. Inputs are 2-D arrays with the same number of columns.
`lo`/`hi` are copied by `np.minimum`/`astype`; `np.asarray(m)` does not copy an ndarray, so `m += 4` writes to the
caller's array. A zero in `m` gives inf/NaN in numpy and `0` here: the theorems assume positive sizes. -/
noncomputable def autogrid (Xs : List (Arr2 ℝ)) (lo hi m : GridArg) : Except PyErr AutogridResult :=
  match Xs with
  | [] => .error .indexError
  | X0 :: _ =>
    let P := X0.cols
    if ¬ lo.fits P then .error .assertionError
    else if ¬ hi.fits P then .error .assertionError
    else if ¬ m.fits P then .error .assertionError
    else do
      let mins ← mapExcept (axisReduce min) Xs
      let maxs ← mapExcept (axisReduce max) Xs
      let maxLo := mins.tail.foldl (zip2 min) (mins.headD [])
      let minHi := maxs.tail.foldl (zip2 max) (maxs.headD [])
      let mv := match m.vals with
        | none => vmk P fun _ => (((Xs.map Arr2.rows).sum / Xs.length : ℕ) : ℝ)
        | some v => v
      let lov := match lo.vals with | none => maxLo | some v => zip2 min v maxLo
      let hiv := match hi.vals with | none => minHi | some v => zip2 max v minHi
      let delta := zip2 (· / ·) (zip2 (· - ·) hiv lov) mv
      let lov := zip2 (fun l d => l - 2 * d) lov delta
      let hiv := zip2 (fun h d => h + 2 * d) hiv delta
      let mv := mv.map (· + 4)
      let mAfter := m.afterUpdate mv
      if ∃ mm ∈ mv, mm ≤ -1 then .error .valueError          -- np.linspace with a negative number of points
      else
        return { grids := List.zipWith (fun (lh : ℝ × ℝ) mm => linspace lh.1 lh.2 (pyInt mm)) (lov.zip hiv) mv,
                 mAfter := mAfter }

end Verif
