import Verif.Model.NumpyUtil

/-!
The operator classes of `runlmc/linalg` (except Toeplitz and BTTB, see `Model/Toeplitz`, `Model/BTTB`)
and `runlmc/approx/ski.py`.

An instance is modelled as the record of its observable attributes and bound methods; a class is the
function from constructor arguments to such a record or an exception. Dynamic dispatch
(`block.matvec`, `K.upper_eig_bound`, …) is then field access, as in python.
`matvec`/`matmat` are only specified for arguments of matching size (numpy raises otherwise; not modelled).
`__str__` is not modelled. dtype conversion (`astype('float64')`) is the identity on ℝ.
-/

namespace Verif

/-- A `Matrix` instance: matrix.py 7-82 (`shape`, `matvec`, `matmat`, `as_numpy`), plus
`upper_eig_bound`, which only some classes define (`AttributeError` otherwise). -/
structure MatObj where
  rows : ℕ
  cols : ℕ
  matvec : List ℝ → List ℝ
  matmat : Arr2 ℝ → Arr2 ℝ
  asNumpy : Arr2 ℝ
  upperEigBound : Except PyErr ℝ

/-- `Matrix.__init__`, matrix.py 19-24: the size check. -/
def matrixInit (n m : ℕ) : Except PyErr Unit :=
  if n < 1 ∨ m < 1 then .error .valueError else .ok ()

/-- default `Matrix.matmat`, matrix.py 55-67: row `i` of `result` is `matvec` of column `i` of `X`;
the result is transposed. -/
def defaultMatmat (rows : ℕ) (matvec : List ℝ → List ℝ) (X : Arr2 ℝ) : Arr2 ℝ :=
  let result : Arr2 ℝ := ⟨X.cols, rows, (List.range X.cols).flatMap fun i => matvec (X.col i)⟩
  result.T

/-- `_MatrixImpl` / `Matrix.wrap`, matrix.py 72-74, 84-90. `as_numpy` is the default (39-43):
`matmat` of the identity. -/
noncomputable def wrapNew (n m : ℕ) (mvm : List ℝ → List ℝ) : Except PyErr MatObj := do
  matrixInit n m
  return { rows := n, cols := m, matvec := mvm, matmat := defaultMatmat n mvm,
           asNumpy := defaultMatmat n mvm (Arr2.eye m), upperEigBound := .error .attributeError }

/-- `NumpyMatrix`, numpy_matrix.py 17-31. -/
noncomputable def numpyMatrixNew (a : NDArr ℝ) : Except PyErr MatObj :=
  match a.shape with
  | [n, m] => do
    matrixInit n m
    let A : Arr2 ℝ := ⟨n, m, a.data⟩
    return { rows := n, cols := m, matvec := A.dotv, matmat := A.dot, asNumpy := A,
             upperEigBound := .error .attributeError }
  | _ => .error .valueError

/-- `Identity`, identity.py 12-25. -/
noncomputable def identityNew (n : ℕ) : Except PyErr MatObj := do
  matrixInit n n
  return { rows := n, cols := n, matvec := fun x => x, matmat := fun x => x, asNumpy := Arr2.eye n,
           upperEigBound := .ok 1 }

/-- `a.max()` of a 1-D array; `ValueError` when empty -/
noncomputable def npMax : List ℝ → Except PyErr ℝ
  | [] => .error .valueError
  | a :: l => .ok (l.foldl max a)

/-- `Diag`, diag.py 17-39. The size check uses `len(v)` and precedes the dimension check. -/
noncomputable def diagNew (v : NDArr ℝ) : Except PyErr MatObj := do
  let n ← v.len
  matrixInit n n
  if v.ndim ≠ 1 then .error .valueError
  else
    return { rows := n, cols := n, matvec := fun x => vmul x v.data,
             matmat := fun X => Arr2.of n X.cols fun i j => v.data.getD i 0 * X.get i j,
             asNumpy := Arr2.of n n fun i j => if i = j then v.data.getD i 0 else 0,
             upperEigBound := npMax v.data }

/-- `la.block_diag(*arrs)`: contract of scipy: arrays placed one after the other on the diagonal. -/
noncomputable def laBlockDiag (arrs : List (Arr2 ℝ)) : Arr2 ℝ :=
  let z := Arr2.zeros (arrs.map Arr2.rows).sum (arrs.map Arr2.cols).sum
  (arrs.foldl (fun (s : Arr2 ℝ × ℕ × ℕ) B =>
    (s.1.setBlock s.2.1 s.2.2 B, s.2.1 + B.rows, s.2.2 + B.cols)) (z, 0, 0)).1

/-- `BlockDiag`, block_diag.py 23-43. -/
noncomputable def blockDiagNew (blocks : List MatObj) : Except PyErr MatObj := do
  let rowLens := blocks.map MatObj.rows
  let colLens := blocks.map MatObj.cols
  matrixInit rowLens.sum colLens.sum
  let (rbegins, rends) ← beginEndIndices rowLens
  let (cbegins, cends) ← beginEndIndices colLens
  let iterateAll := (rbegins.zip rends).zip ((cbegins.zip cends).zip blocks)
  let matvec := fun (x : List ℝ) =>
    iterateAll.foldl (fun result t => setSlice result t.1.1 (t.2.2.matvec (slice x t.2.1.1 t.2.1.2)))
      (npEmpty rowLens.sum)
  return { rows := rowLens.sum, cols := colLens.sum, matvec := matvec,
           matmat := defaultMatmat rowLens.sum matvec,
           asNumpy := laBlockDiag (blocks.map MatObj.asNumpy),
           upperEigBound := .error .attributeError }

/-- `la.norm(A, 1)`: the largest absolute column sum (scipy contract), of a `D × D` array -/
noncomputable def laNorm1 (D : ℕ) (A : ℕ → ℕ → ℝ) : Except PyErr ℝ :=
  npMax (vmk D fun j => ∑ i ∈ Finset.range D, |A i j|)

/-- evaluates the exceptions of a list of computations in order -/
def seqAll {α : Type*} : List (Except PyErr α) → Except PyErr (List α)
  | [] => .ok []
  | a :: l => do let x ← a; let xs ← seqAll l; return x :: xs

/-- `SymmSquareBlockMatrix`, block_matrix.py 21-49. `blocks` is the `D × D` array of matrices.
`upper_eig_bound` (46-49): the bounds of the blocks with `i ≤ j`, mirrored, then the 1-norm. -/
noncomputable def symmSquareBlockNew (blocks : List (List MatObj)) : Except PyErr MatObj := do
  let D := blocks.length
  if (blocks.map List.length).toFinset ≠ {D} then .error .valueError
  else
    match blocks with
    | (b00 :: _) :: _ => do
      let m := b00.rows
      let n := D * m
      matrixInit n n
      let begins := vmk D fun i => i * m           -- np.arange(0, n, m)
      let ends := begins.map (· + m)
      let spans := begins.zip ends
      let matvec := fun (x : List ℝ) =>
        (spans.zip blocks).foldl (fun result r =>
          (spans.zip r.2).foldl (fun result c =>
            setSlice result r.1.1
              (vadd (slice result r.1.1 r.1.2) (c.2.matvec (slice x c.1.1 c.1.2)))) result)
          (vmk x.length fun _ => 0)
      let asNumpy :=
        (spans.zip blocks).foldl (fun z r =>
          (spans.zip r.2).foldl (fun z c => z.setBlock r.1.1 c.1.1 c.2.asNumpy) z)
          (Arr2.zeros n n)
      let bound : Except PyErr ℝ := do
        let ub := fun i j => ((blocks.getD i []).getD j b00).upperEigBound
        let _ ← seqAll ((List.range D).flatMap fun i => (List.range' i (D - i)).map fun j => ub i j)
        laNorm1 D (symm2dListMap (fun e : Except PyErr ℝ => e.toOption.getD 0) ub D fun _ _ => 0)
      return { rows := n, cols := n, matvec := matvec, matmat := defaultMatmat n matvec,
               asNumpy := asNumpy, upperEigBound := bound }
    | _ => .error .indexError

/-- `SumMatrix`, sum_matrix.py 19-45. python's `sum` adds from the left (starting at the integer 0). -/
noncomputable def sumMatrixNew (Ks : List MatObj) : Except PyErr MatObj :=
  match Ks with
  | [] => .error .valueError
  | K0 :: rest => do
    if ((K0 :: rest).map fun K => (K.rows, K.cols)).toFinset.card ≠ 1 then .error .valueError
    else
      matrixInit K0.rows K0.cols
      let matvec := fun x => rest.foldl (fun s K => vadd s (K.matvec x)) (K0.matvec x)
      let bound : Except PyErr ℝ := do
        let bs ← seqAll ((K0 :: rest).map MatObj.upperEigBound)
        return bs.sum
      return { rows := K0.rows, cols := K0.cols, matvec := matvec,
               matmat := defaultMatmat K0.rows matvec,
               asNumpy := rest.foldl (fun s K => s.add K.asNumpy) K0.asNumpy,
               upperEigBound := bound }

/-- `Composition`, composition.py 10-22. `mats[0]` on an empty list is an IndexError. -/
noncomputable def compositionNew (mats : List MatObj) : Except PyErr MatObj :=
  match mats.head?, mats.getLast? with
  | some first, some last => do
    matrixInit first.rows last.cols
    let matmat := fun X => mats.reverse.foldl (fun X M => M.matmat X) X
    return { rows := first.rows, cols := last.cols,
             matvec := fun x => mats.reverse.foldl (fun x M => M.matvec x) x,
             matmat := matmat, asNumpy := matmat (Arr2.eye last.cols),
             upperEigBound := .error .attributeError }
  | _, _ => .error .indexError

/-- `Kronecker`, kronecker.py 31-52. `matvec`: two rounds of `reshape(-1, n).T` and `matmat`. -/
noncomputable def kroneckerNew (A B : MatObj) : Except PyErr MatObj := do
  let n := A.rows * B.rows
  let m := A.cols * B.cols
  matrixInit n m
  let matvec := fun (x : List ℝ) =>
    let x1 := B.matmat (Arr2.ofVec x B.cols).T
    let x2 := A.matmat (x1.reshapeCols A.cols).T
    x2.data
  let a := A.asNumpy
  let b := B.asNumpy
  return { rows := n, cols := m, matvec := matvec, matmat := defaultMatmat n matvec,
           asNumpy := Arr2.of (a.rows * b.rows) (a.cols * b.cols) fun i j =>
             a.get (i / b.rows) (j / b.cols) * b.get (i % b.rows) (j % b.cols),   -- np.kron
           upperEigBound := do
             let ua ← A.upperEigBound
             let ub ← B.upperEigBound
             return ua * ub }

/-- `SKI`, approx/ski.py 8-23. `W` and `WT` are sparse matrices, modelled by their dense meaning.
`upper_eig_bound` reads `self.m`, which no class sets: AttributeError (after evaluating `K`'s bound). -/
noncomputable def skiNew (K : MatObj) (W WT : Arr2 ℝ) : Except PyErr MatObj := do
  let w ← wrapNew W.rows W.cols W.dotv
  let wt ← wrapNew WT.rows WT.cols WT.dotv
  let comp ← compositionNew [w, K, wt]
  return { comp with
    asNumpy := W.dot (W.dot K.asNumpy.T).T
    upperEigBound := do
      let _ ← K.upperEigBound
      .error .attributeError }

end Verif
