import Verif.Model.BTTB
import Verif.Model.LLGP

/-! The product methods of `runlmc/linalg` and `approx/ski.py` for arguments of any size: what numpy raises and what it broadcasts. The values for arguments of the
documented size are those of `MatObj`. -/

namespace Verif

/-- an operator and what its `matvec` and `matmat` do with any 1-D, respectively 2-D, array -/
structure RawOp where
  obj : MatObj
  vec : List ℝ → Except PyErr (List ℝ)
  mat : Arr2 ℝ → Except PyErr (Arr2 ℝ)

/-! ### numpy -/

/-- `f(x, y)` of 1-D arrays, elementwise with broadcasting -/
def bcast (f : ℝ → ℝ → ℝ) (x y : List ℝ) : Except PyErr (List ℝ) :=
  if x.length = y.length then .ok (List.zipWith f x y)
  else if x.length = 1 then .ok (y.map fun b => f (x.getD 0 0) b)
  else if y.length = 1 then .ok (x.map fun a => f a (y.getD 0 0))
  else .error .valueError

/-- the value stored when `y` is assigned to `n` entries: `y` itself, or its only entry everywhere -/
def fillTo {α : Type} [Zero α] (n : ℕ) (y : List α) : Except PyErr (List α) :=
  if y.length = n then .ok y else if y.length = 1 then .ok (List.replicate n (y.getD 0 0)) else .error .valueError

/-- `t[b:e] = y` -/
def assignSlice (t : List ℝ) (b e : ℕ) (y : List ℝ) : Except PyErr (List ℝ) := do
  let y ← fillTo (slice t b e).length y
  return setSlice t b y

/-- `t[b:e] += y` -/
def plusSlice (t : List ℝ) (b e : ℕ) (y : List ℝ) : Except PyErr (List ℝ) := do
  let y ← fillTo (slice t b e).length y
  return setSlice t b (vadd (slice t b e) y)

/-- `x.reshape(-1, n)` -/
def reshapeTo (x : List ℝ) (n : ℕ) : Except PyErr (Arr2 ℝ) := if n = 0 ∨ x.length % n ≠ 0 then .error .valueError else .ok (Arr2.ofVec x n)

/-- a `for` loop -/
def foldExcept {σ γ : Type} (f : σ → γ → Except PyErr σ) : List γ → σ → Except PyErr σ
  | [], s => .ok s
  | a :: l, s => do let s ← f s a; foldExcept f l s

/-! ### the classes -/

/-- default `Matrix.matmat`, matrix.py 55-67: `result[i] = self.matvec(col)` broadcasts -/
def rawMatmat (rows : ℕ) (vec : List ℝ → Except PyErr (List ℝ)) (X : Arr2 ℝ) : Except PyErr (Arr2 ℝ) := do
  let rs ← mapExcept (fun i => do let y ← vec (X.col i); fillTo rows y) (List.range X.cols)
  return (⟨X.cols, rows, rs.flatten⟩ : Arr2 ℝ).T

/-- an instance that inherits `matmat` -/
def MatObj.rawDefault (M : MatObj) (vec : List ℝ → Except PyErr (List ℝ)) : RawOp := ⟨M, vec, rawMatmat M.rows vec⟩

/-- `Matrix.wrap`, matrix.py 72-74, 84-90, of a function that may raise -/
noncomputable def rawWrap (n m : ℕ) (mvm : List ℝ → Except PyErr (List ℝ)) : Except PyErr RawOp := do
  let M ← wrapNew n m fun x => (mvm x).toOption.getD []
  return M.rawDefault mvm

/-- `NumpyMatrix`, numpy_matrix.py 17-31: `self.A.dot(x)` -/
noncomputable def rawDense (a : NDArr ℝ) : Except PyErr RawOp := do
  let M ← numpyMatrixNew a
  return ⟨M, fun x => if x.length = M.cols then .ok (M.matvec x) else .error .valueError, fun X => if X.rows = M.cols then .ok (M.matmat X) else .error .valueError⟩

/-- `Identity`, identity.py 12-25 -/
noncomputable def rawIdentity (n : ℕ) : Except PyErr RawOp := do
  let M ← identityNew n
  return ⟨M, fun x => .ok x, fun X => .ok X⟩

/-- `self.v.reshape(-1, 1) * x` with broadcasting, diag.py 30 -/
noncomputable def diagMat (v : List ℝ) (X : Arr2 ℝ) : Except PyErr (Arr2 ℝ) :=
  if v.length = X.rows then .ok (Arr2.of v.length X.cols fun i j => v.getD i 0 * X.get i j)
  else if v.length = 1 then .ok (Arr2.of X.rows X.cols fun i j => v.getD 0 0 * X.get i j)
  else if X.rows = 1 then .ok (Arr2.of v.length X.cols fun i j => v.getD i 0 * X.get 0 j)
  else .error .valueError

/-- `Diag`, diag.py 17-39: `x * self.v` -/
noncomputable def rawDiag (v : NDArr ℝ) : Except PyErr RawOp := do
  let M ← diagNew v
  return ⟨M, fun x => bcast (· * ·) x v.data, diagMat v.data⟩

/-- `Toeplitz.matvec`, toeplitz.py 57-67: `np.fft.rfft` refuses zero points, `x_fft *= self._circ_fft` needs a factor that fits -/
noncomputable def rawToeplitzVec (top x : List ℝ) : Except PyErr (List ℝ) :=
  if x.length * 2 = 0 then .error .valueError
  else do
    let circ := cyclicExtend top
    let xFft := rfft x (x.length * 2)
    let factor ← fillTo xFft.length (rfft circ circ.length)
    return (irfft (List.zipWith (· * ·) xFft factor)).take x.length

/-- `Toeplitz`, toeplitz.py 34-67 -/
noncomputable def rawToeplitz (top : NDArr ℝ) : Except PyErr RawOp := do
  let M ← toeplitzNew top
  return M.rawDefault (rawToeplitzVec top.data)

/-- `BTTB`, bttb.py 91-148: `x.reshape(self._sizes)` -/
noncomputable def rawBttb (top : NDArr ℝ) (sizes : NDArr ℕ) : Except PyErr RawOp := do
  let M ← bttbNew top sizes
  return M.rawDefault fun x => if x.length = sizes.data.prod then .ok (bttbMatvec top.data sizes.data x) else .error .valueError

/-- `BlockDiag.matvec`, block_diag.py 36-40 -/
noncomputable def rawBlockDiagVec (blocks : List RawOp) (x : List ℝ) : Except PyErr (List ℝ) := do
  let rs ← beginEndIndices (blocks.map fun b => b.obj.rows)
  let cs ← beginEndIndices (blocks.map fun b => b.obj.cols)
  foldExcept (fun result (t : (ℕ × ℕ) × (ℕ × ℕ) × RawOp) => do
      let y ← t.2.2.vec (slice x t.2.1.1 t.2.1.2)
      assignSlice result t.1.1 t.1.2 y)
    ((rs.1.zip rs.2).zip ((cs.1.zip cs.2).zip blocks)) (npEmpty (blocks.map fun b => b.obj.rows).sum)

/-- `BlockDiag`, block_diag.py 23-43 -/
noncomputable def rawBlockDiag (blocks : List RawOp) : Except PyErr RawOp := do
  let M ← blockDiagNew (blocks.map RawOp.obj)
  return M.rawDefault (rawBlockDiagVec blocks)

/-- `SymmSquareBlockMatrix.matvec`, block_matrix.py 32-37, with blocks of order `m` -/
noncomputable def rawSymmBlockVec (blocks : List (List RawOp)) (m : ℕ) (x : List ℝ) : Except PyErr (List ℝ) :=
  let begins := vmk blocks.length fun i => i * m
  let spans := begins.zip (begins.map (· + m))
  foldExcept (fun result (r : (ℕ × ℕ) × List RawOp) =>
      foldExcept (fun result (c : (ℕ × ℕ) × RawOp) => do
        let y ← c.2.vec (slice x c.1.1 c.1.2)
        plusSlice result r.1.1 r.1.2 y) (spans.zip r.2) result)
    (spans.zip blocks) (vmk x.length fun _ => 0)

/-- `SymmSquareBlockMatrix`, block_matrix.py 21-49 -/
noncomputable def rawSymmBlock (blocks : List (List RawOp)) : Except PyErr RawOp := do
  let M ← symmSquareBlockNew (blocks.map fun row => row.map RawOp.obj)
  match blocks with
  | (b00 :: _) :: _ => return M.rawDefault (rawSymmBlockVec blocks b00.obj.rows)
  | _ => .error .indexError

/-- `SumMatrix.matvec`, sum_matrix.py 31-32 -/
noncomputable def rawSumVec (Ks : List RawOp) (x : List ℝ) : Except PyErr (List ℝ) :=
  match Ks with
  | [] => .error .valueError
  | K0 :: rest => do
    let y ← K0.vec x
    foldExcept (fun s (K : RawOp) => do let y ← K.vec x; bcast (· + ·) s y) rest y

/-- `SumMatrix`, sum_matrix.py 19-45 -/
noncomputable def rawSum (Ks : List RawOp) : Except PyErr RawOp := do
  let M ← sumMatrixNew (Ks.map RawOp.obj)
  return M.rawDefault (rawSumVec Ks)

/-- `Composition`, composition.py 10-22 -/
noncomputable def rawComposition (mats : List RawOp) : Except PyErr RawOp := do
  let M ← compositionNew (mats.map RawOp.obj)
  return ⟨M, foldExcept (fun x K => K.vec x) mats.reverse, foldExcept (fun X K => K.mat X) mats.reverse⟩

/-- `Kronecker.matvec`, kronecker.py 39-46 -/
noncomputable def rawKronVec (A B : RawOp) (x : List ℝ) : Except PyErr (List ℝ) := do
  let x1 ← reshapeTo x B.obj.cols
  let y1 ← B.mat x1.T
  let x2 ← reshapeTo y1.data A.obj.cols
  let y2 ← A.mat x2.T
  return y2.data

/-- `Kronecker`, kronecker.py 31-52 -/
noncomputable def rawKron (A B : RawOp) : Except PyErr RawOp := do
  let M ← kroneckerNew A.obj B.obj
  return M.rawDefault (rawKronVec A B)

/-- `SKI`, approx/ski.py 8-23: the products with the sparse matrices raise for other lengths -/
noncomputable def rawSki (K : RawOp) (W WT : Arr2 ℝ) : Except PyErr RawOp := do
  let M ← skiNew K.obj W WT
  let w ← rawWrap W.rows W.cols (csrDot W)
  let wt ← rawWrap WT.rows WT.cols (csrDot WT)
  let c ← rawComposition [w, K, wt]
  return ⟨M, c.vec, c.mat⟩

/-! ### `as_linear_operator` -/

/-- `as_linear_operator().matvec(x)`, matrix.py 26-37: scipy checks the length of `x` and reshapes the result -/
def RawOp.linVec (r : RawOp) (x : List ℝ) : Except PyErr (List ℝ) :=
  if x.length ≠ r.obj.cols then .error .valueError
  else do
    let y ← r.vec x
    if y.length ≠ r.obj.rows then .error .valueError else return y

/-- `as_linear_operator().matmat(X)`: scipy checks the number of rows -/
def RawOp.linMat (r : RawOp) (X : Arr2 ℝ) : Except PyErr (Arr2 ℝ) := if X.rows ≠ r.obj.cols then .error .valueError else r.mat X

end Verif
