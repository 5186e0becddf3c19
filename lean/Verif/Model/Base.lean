import Mathlib.Data.Real.Basic
import Mathlib.Algebra.BigOperators.Group.Finset.Basic

/-!
Shared vocabulary of the model: python exceptions as values and numpy arrays as lists.
-/

namespace Verif

/-- Exceptions python raises in the modelled code (the constructor is the exception class). -/
inductive PyErr where
  | valueError | typeError | attributeError | indexError | assertionError | keyError
  | zeroDivisionError | linAlgError | notImplementedError | runtimeError | keyboardInterrupt
  deriving DecidableEq, Repr

/-- A freshly allocated 1-D ndarray of length `n` whose `i`-th entry is `f i`. -/
def vmk {α : Type*} (n : ℕ) (f : ℕ → α) : List α := (List.range n).map f

/-- Contents of uninitialised memory: nothing is known about it (`np.empty`). -/
opaque junk : ℕ → ℝ

/-- `np.empty(n)`. -/
noncomputable def npEmpty (n : ℕ) : List ℝ := vmk n junk

/-- `x[b:e]` for `0 ≤ b ≤ e` (numpy truncates at the end of the array, as does this). -/
def slice {α : Type*} (x : List α) (b e : ℕ) : List α := (x.drop b).take (e - b)

/-- `x[b:b+len(v)] = v`. -/
def setSlice {α : Type*} (x : List α) (b : ℕ) (v : List α) : List α :=
  x.take b ++ v ++ x.drop (b + v.length)

/-- `x + y` for 1-D arrays of equal length. -/
def vadd (x y : List ℝ) : List ℝ := List.zipWith (· + ·) x y

/-- `x * y` (elementwise) for 1-D arrays of equal length. -/
def vmul (x y : List ℝ) : List ℝ := List.zipWith (· * ·) x y

/-- A 2-D ndarray: its shape and its entries in C (row-major) order. -/
structure Arr2 (α : Type*) where
  rows : ℕ
  cols : ℕ
  data : List α

namespace Arr2
variable {α : Type*}

/-- the array holds exactly `rows * cols` entries (true of every ndarray) -/
def WF (A : Arr2 α) : Prop := A.data.length = A.rows * A.cols

/-- `A[i, j]` -/
def get [Zero α] (A : Arr2 α) (i j : ℕ) : α := A.data.getD (i * A.cols + j) 0

/-- A freshly allocated 2-D array with `(i,j)` entry `f i j`. -/
def of (r c : ℕ) (f : ℕ → ℕ → α) : Arr2 α := ⟨r, c, vmk (r * c) fun k => f (k / c) (k % c)⟩

/-- `A.T` -/
def T [Zero α] (A : Arr2 α) : Arr2 α := of A.cols A.rows fun i j => A.get j i

/-- `x.reshape(-1, c)` of a 1-D array. -/
def ofVec (x : List α) (c : ℕ) : Arr2 α := ⟨x.length / c, c, x⟩

/-- `A.reshape(-1, c)` of a 2-D array (C order: the flat data is unchanged). -/
def reshapeCols (A : Arr2 α) (c : ℕ) : Arr2 α := ofVec A.data c

/-- row `i` as a 1-D array: `A[i]` -/
def row [Zero α] (A : Arr2 α) (i : ℕ) : List α := vmk A.cols fun j => A.get i j

/-- column `j` as a 1-D array: `A.T[j]` -/
def col [Zero α] (A : Arr2 α) (j : ℕ) : List α := vmk A.rows fun i => A.get i j

/-- `A.dot(x)` for a 1-D array `x` -/
noncomputable def dotv (A : Arr2 ℝ) (x : List ℝ) : List ℝ :=
  vmk A.rows fun i => ∑ j ∈ Finset.range A.cols, A.get i j * x.getD j 0

/-- `A.dot(B)` for a 2-D array `B` -/
noncomputable def dot (A B : Arr2 ℝ) : Arr2 ℝ :=
  of A.rows B.cols fun i k => ∑ j ∈ Finset.range A.cols, A.get i j * B.get j k

/-- `A + B` for 2-D arrays of equal shape -/
noncomputable def add (A B : Arr2 ℝ) : Arr2 ℝ :=
  of A.rows A.cols fun i j => A.get i j + B.get i j

/-- `A * B` elementwise for 2-D arrays of equal shape -/
noncomputable def hmul (A B : Arr2 ℝ) : Arr2 ℝ :=
  of A.rows A.cols fun i j => A.get i j * B.get i j

/-- `c * A` -/
noncomputable def smul (c : ℝ) (A : Arr2 ℝ) : Arr2 ℝ :=
  of A.rows A.cols fun i j => c * A.get i j

/-- `np.identity(n)` -/
noncomputable def eye (n : ℕ) : Arr2 ℝ := of n n fun i j => if i = j then 1 else 0

/-- `np.zeros((r, c))` -/
noncomputable def zeros (r c : ℕ) : Arr2 ℝ := of r c fun _ _ => 0

/-- `Z[rb:rb+B.rows, cb:cb+B.cols] = B` -/
noncomputable def setBlock (Z : Arr2 ℝ) (rb cb : ℕ) (B : Arr2 ℝ) : Arr2 ℝ :=
  of Z.rows Z.cols fun i j =>
    if rb ≤ i ∧ i < rb + B.rows ∧ cb ≤ j ∧ j < cb + B.cols then B.get (i - rb) (j - cb)
    else Z.get i j

end Arr2
end Verif

namespace Verif

/-- An n-dimensional ndarray: shape and entries in C order. -/
structure NDArr (α : Type*) where
  shape : List ℕ
  data : List α

namespace NDArr
variable {α : Type*}

/-- every ndarray holds exactly `prod(shape)` entries -/
def WF (A : NDArr α) : Prop := A.data.length = A.shape.prod

/-- `A.ndim` -/
def ndim (A : NDArr α) : ℕ := A.shape.length

/-- `len(A)`: a `TypeError` for 0-d arrays -/
def len (A : NDArr α) : Except PyErr ℕ :=
  match A.shape with
  | [] => .error .typeError
  | n :: _ => .ok n

/-- a 1-D array -/
def vec (x : List α) : NDArr α := ⟨[x.length], x⟩

end NDArr

/-- flat (C order) position of a multi-index -/
def ravel : List ℕ → List ℕ → ℕ
  | _ :: s, i :: t => i * s.prod + ravel s t
  | _, _ => 0

/-- all multi-indices of a shape, in C order -/
def indices : List ℕ → List (List ℕ)
  | [] => [[]]
  | n :: s => (List.range n).flatMap fun i => (indices s).map (i :: ·)

namespace NDArr
variable {α : Type*}

/-- `A[i_1, ..., i_P]` -/
def get [Zero α] (A : NDArr α) (idx : List ℕ) : α := A.data.getD (ravel A.shape idx) 0

/-- a freshly allocated array with entry `f idx` at `idx` -/
def of (shape : List ℕ) (f : List ℕ → α) : NDArr α := ⟨shape, (indices shape).map f⟩

end NDArr
end Verif
