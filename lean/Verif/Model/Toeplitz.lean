import Verif.Model.FFT
import Verif.Model.Matrix

/-! `runlmc/linalg/toeplitz.py` -/

namespace Verif

/-- `np.finfo('float64').eps`, numpy_convenience.py 52 -/
noncomputable def EPS : ℝ := 2⁻¹ ^ 52

/-- `Toeplitz._cyclic_extend`, toeplitz.py 46-52. -/
def cyclicExtend (x : List ℝ) : List ℝ :=
  let n := x.length
  let extended := vmk (n * 2) fun _ => (0 : ℝ)
  let extended := setSlice extended 0 x
  setSlice extended (n + 1) x.tail.reverse

/-- `la.toeplitz(c)` for a 1-D real `c` (scipy contract; also used on ravelled input). -/
def laToeplitz (c : List ℝ) : Arr2 ℝ :=
  Arr2.of c.length c.length fun i j => c.getD (if j ≤ i then i - j else j - i) 0

/-- `Toeplitz.matvec`, toeplitz.py 57-67, with `_circ_fft` from `__init__` (43-44). -/
noncomputable def toeplitzMatvec (top x : List ℝ) : List ℝ :=
  let circ := cyclicExtend top
  let circFft := rfft circ circ.length
  let xFft := rfft x (x.length * 2)
  let xFft := List.zipWith (· * ·) xFft circFft
  (irfft xFft).take x.length

/-- `Toeplitz.upper_eig_bound`, toeplitz.py 69-85. `abstop[:0:-1]` is the reverse of `abstop[1:]`. -/
noncomputable def toeplitzUpperEigBound (top : List ℝ) : Except PyErr ℝ := do
  let abstop := top.map fun t => |t|
  let totals := abstop
  let totals := setSlice totals 0 [abstop.sum]
  let totals := setSlice totals 1 (List.zipWith (· - ·) totals.tail abstop.tail.reverse)
  let totals := accumulate totals
  let m ← npMax totals
  return m * (1 + EPS * top.length)

/-- `Toeplitz.__init__`, toeplitz.py 34-44, and the methods. -/
noncomputable def toeplitzNew (top : NDArr ℝ) : Except PyErr MatObj := do
  let n ← top.len
  if top.shape ≠ [n] then .error .valueError
  else if top.data.length = 0 then .error .valueError
  else
    matrixInit n n
    let matvec := toeplitzMatvec top.data
    return { rows := n, cols := n, matvec := matvec, matmat := defaultMatmat n matvec,
             asNumpy := laToeplitz top.data, upperEigBound := toeplitzUpperEigBound top.data }

end Verif
