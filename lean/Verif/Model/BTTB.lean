import Verif.Model.Toeplitz
import Mathlib.Data.Nat.Size

/-! `runlmc/linalg/bttb.py` -/

namespace Verif

/-- `_pow2`, bttb.py 16-19 (`Nat.size` is python's `int.bit_length`). -/
def pow2 (x : List ℕ) : List ℕ := x.map fun xx => 2 ^ (xx - 1).size

/-- one pass of the loop in `_cyclic_extend_n` (bttb.py 116-118) for axis `p`:
`extended[..., m-n+1:m, :…] = extended[..., n-1:0:-1, :…]`. -/
def mirrorAxis (E : NDArr ℝ) (p n m : ℕ) : NDArr ℝ :=
  NDArr.of E.shape fun idx =>
    let q := idx.getD p 0
    if m - n + 1 ≤ q ∧ q < m then E.get (idx.set p (n - 1 - (q - (m - n + 1)))) else E.get idx

/-- `BTTB._cyclic_extend_n`, bttb.py 110-120. -/
def cyclicExtendN (x : List ℝ) (sizes : List ℕ) : NDArr ℝ :=
  let shape := pow2 (sizes.map (· * 2))
  let xr : NDArr ℝ := ⟨sizes, x⟩                        -- x.reshape(sizes)
  let extended := NDArr.of shape fun idx => if inBox sizes idx then xr.get idx else 0
  (List.range sizes.length).reverse.foldl (fun E p => mirrorAxis E p (sizes.getD p 0) (shape.getD p 0)) extended

/-- `BTTB._toep_replicate`, bttb.py 122-133. Scalars are represented as 1×1 arrays: in the case `n == 1`
`la.toeplitz` ravels its argument, so both read the same. -/
noncomputable def toepReplicate (blocks : List (Arr2 ℝ)) (n : ℕ) : Arr2 ℝ :=
  if n = 1 then laToeplitz (blocks.flatMap Arr2.data)
  else
    let nblocks := blocks.length
    let z := Arr2.zeros (nblocks * n) (nblocks * n)
    (List.range nblocks).foldl (fun z i =>
      (List.range (nblocks - i)).foldl (fun z j =>
        let tblock := blocks.getD i ⟨0, 0, []⟩
        let blockx := (i + j) * n
        let blocky := j * n
        let z := z.setBlock blockx blocky tblock
        z.setBlock blocky blockx tblock.T) z) z

/-- `BTTB.as_numpy`, bttb.py 135-142. -/
noncomputable def bttbAsNumpy (top : List ℝ) (sizes : List ℕ) : Arr2 ℝ :=
  let st := sizes.reverse.foldl (fun (st : List (Arr2 ℝ) × ℕ) n =>
    ((chunksL st.1 n).map fun b => toepReplicate b st.2, st.2 * n))
    (top.map fun t => Arr2.of 1 1 fun _ _ => t, 1)
  st.1.getD 0 ⟨0, 0, []⟩

/-- `BTTB.matvec`, bttb.py 144-148, with `_circ_fft` from `__init__` (106-108). -/
noncomputable def bttbMatvec (top : List ℝ) (sizes : List ℕ) (x : List ℝ) : List ℝ :=
  let circ := cyclicExtendN top sizes
  let circFft := rfftn circ circ.shape
  let xFft := rfftn ⟨sizes, x⟩ (pow2 (sizes.map (· * 2)))
  let xFft : NDArr ℂ := ⟨xFft.shape, List.zipWith (· * ·) xFft.data circFft.data⟩
  let xIfft := irfftn xFft
  (NDArr.of sizes fun idx => xIfft.get idx).data         -- x_ifft[self._subrectangle].ravel()

/-- `BTTB.__init__`, bttb.py 91-108, and the methods. Sizes are natural numbers (negative sizes are not
modelled). For an empty `sizes` with one-element `top`, `np.fft.rfftn` of a 0-d array raises IndexError. -/
noncomputable def bttbNew (top : NDArr ℝ) (sizes : NDArr ℕ) : Except PyErr MatObj := do
  let n ← top.len
  if top.shape ≠ [n] then .error .valueError
  else if top.data.length = 0 then .error .valueError
  else
    let k ← sizes.len
    if sizes.shape ≠ [k] then .error .valueError
    else if sizes.data.prod ≠ top.data.length then .error .valueError
    else
      matrixInit n n
      if sizes.data = [] then .error .indexError
      else
        let matvec := bttbMatvec top.data sizes.data
        return { rows := n, cols := n, matvec := matvec, matmat := defaultMatmat n matvec,
                 asNumpy := bttbAsNumpy top.data sizes.data,
                 upperEigBound := .error .attributeError }

end Verif
