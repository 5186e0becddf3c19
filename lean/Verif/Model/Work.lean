import Verif.Model.GridKernel

/-! What the products of `runlmc/linalg`, `runlmc/approx/ski.py` and `runlmc/lmc/grid_kernel.py` cost.

The functions below are those of `Model/Matrix`, `Model/BTTB` and `Model/GridKernel`, where every operator carries along what its `matvec` and `matmat` cost:
the arithmetic operations with floating point numbers that the methods execute and the discrete Fourier transforms they call.
Copies, reshapes, slices, index computations and the interpreter's own work are not counted. -/

namespace Verif

/-- what is paid for: a real discrete Fourier transform (or its inverse) with that many points, and an addition or multiplication of real numbers -/
structure Prices where
  fft : ℕ → ℕ
  op : ℕ

/-- an operator, the cost of a call of `matvec`, and that of a call of `matmat` with so many columns -/
structure Priced where
  obj : MatObj
  mv : ℕ
  mm : ℕ → ℕ

/-- an operator that inherits `Matrix.matmat`, matrix.py 55-67: a call of `matvec` for every column -/
def Priced.loop (M : MatObj) (mv : ℕ) : Priced := ⟨M, mv, fun k => k * mv⟩

variable (p : Prices)

/-- `NumpyMatrix`, numpy_matrix.py 27-31: `A.dot` multiplies and adds once for every entry and column -/
noncomputable def Prices.numpyMatrix (A : Arr2 ℝ) : Except PyErr Priced := do
  let M ← numpyMatrix2 A
  return ⟨M, p.op * (2 * (A.rows * A.cols)), fun k => p.op * (2 * (A.rows * A.cols) * k)⟩

/-- `Identity`, identity.py 15-19: returns its argument -/
noncomputable def pricedIdentity (n : ℕ) : Except PyErr Priced := do
  let M ← identityNew n
  return ⟨M, 0, fun _ => 0⟩

/-- `Diag`, diag.py 24-30: one multiplication for every entry -/
noncomputable def Prices.diag (v : List ℝ) : Except PyErr Priced := do
  let M ← diagNew (.vec v)
  return ⟨M, p.op * v.length, fun k => p.op * (v.length * k)⟩

/-- the number of points of the padded grid, bttb.py 111, 145 -/
def fftPoints (sizes : List ℕ) : ℕ := (pow2 (sizes.map (· * 2))).prod

/-- the number of complex coefficients of a real transform: numpy halves the last axis -/
def fftCoeffs : List ℕ → ℕ
  | [] => 1
  | [n] => n / 2 + 1
  | n :: m :: l => n * fftCoeffs (m :: l)

/-- `BTTB.matvec`, bttb.py 144-148: two transforms of the padded grid and a product of complex numbers (six real operations) for each coefficient -/
def Prices.bttbWork (sizes : List ℕ) : ℕ := 2 * p.fft (fftPoints sizes) + p.op * (6 * fftCoeffs (pow2 (sizes.map (· * 2))))

/-- `BTTB`, bttb.py 91-108, 144-148 -/
noncomputable def Prices.bttb (sizes : List ℕ) (top : List ℝ) : Except PyErr Priced := do
  let M ← gridBttb sizes top
  return .loop M (p.bttbWork sizes)

/-- `BlockDiag`, block_diag.py 36-40: every block is multiplied once -/
noncomputable def pricedBlockDiag (blocks : List Priced) : Except PyErr Priced := do
  let M ← blockDiagNew (blocks.map Priced.obj)
  return .loop M (blocks.map Priced.mv).sum

/-- `SymmSquareBlockMatrix`, block_matrix.py 32-37: every one of the blocks is multiplied once and added to the result -/
noncomputable def Prices.symmSquareBlock (blocks : List (List Priced)) : Except PyErr Priced := do
  let M ← symmSquareBlockNew (blocks.map (·.map Priced.obj))
  return .loop M (blocks.map fun row => (row.map fun B => B.mv + p.op * B.obj.rows).sum).sum

/-- `SumMatrix`, sum_matrix.py 31-32: every summand is multiplied once and added (python's `sum` starts with a zero) -/
noncomputable def Prices.sumMatrix (Ks : List Priced) : Except PyErr Priced := do
  let M ← sumMatrixNew (Ks.map Priced.obj)
  return .loop M (Ks.map fun K => K.mv + p.op * K.obj.rows).sum

/-- `Composition`, composition.py 14-22 -/
noncomputable def pricedComposition (mats : List Priced) : Except PyErr Priced := do
  let M ← compositionNew (mats.map Priced.obj)
  return ⟨M, (mats.map Priced.mv).sum, fun k => (mats.map fun M => M.mm k).sum⟩

/-- `Kronecker`, kronecker.py 39-46: `B.matmat` of an array with as many columns as `A` has, then `A.matmat` of one with as many columns as `B` has rows -/
noncomputable def pricedKronecker (A B : Priced) : Except PyErr Priced := do
  let M ← kroneckerNew A.obj B.obj
  return .loop M (B.mm A.obj.cols + A.mm B.obj.rows)

/-- `SKI`, ski.py 8-16, a composition with two sparse matrices of `stored` entries each: `dot` multiplies and adds once for every stored entry -/
noncomputable def Prices.ski (K : Priced) (W WT : Arr2 ℝ) (stored : ℕ) : Except PyErr Priced := do
  let M ← skiNew K.obj W WT
  return ⟨M, p.op * (2 * stored) + K.mv + p.op * (2 * stored), fun k => k * (p.op * (2 * stored)) + K.mm k + k * (p.op * (2 * stored))⟩

/-- one summand of `_gen_sum_grid`, grid_kernel.py 133-134 -/
noncomputable def Prices.kronOf (AK : Arr2 ℝ × Priced) : Except PyErr Priced := do
  let A ← p.numpyMatrix AK.1
  pricedKronecker A AK.2

/-- `_gen_sum_grid`, grid_kernel.py 126-136 -/
noncomputable def Prices.genSumGrid (fk : FK) (tops : List (List ℝ)) (sizes : List ℕ) (ad : List ℕ) : Except PyErr Priced := do
  let kernelsOnGrid ← mapExcept (p.bttb sizes) tops
  let mats ← fk.coregMatsAt ad
  let products ← mapExcept p.kronOf (mats.zip kernelsOnGrid)
  p.sumMatrix products

/-- a successful result; only used after all computations are known to succeed -/
noncomputable def Priced.ofExcept (e : Except PyErr Priced) : Priced :=
  match e with
  | .ok M => M
  | .error _ => .loop (MatObj.ofExcept (.error .attributeError)) 0

/-- `_gen_bt_grid`, grid_kernel.py 115-123 -/
noncomputable def Prices.genBtGrid (fk : FK) (tops : List (List ℝ)) (sizes : List ℕ) (ad : List ℕ) : Except PyErr Priced := do
  let Bs ← fk.coregMatsAt ad
  let bt := tensorTop Bs tops sizes.prod
  let _ ← seqAll ((List.range fk.D).flatMap fun i => (List.range' i (fk.D - i)).map fun j => p.bttb sizes (bt i j))
  let blocked := symm2dListMap (fun top => Priced.ofExcept (p.bttb sizes top)) bt fk.D
    fun _ _ => Priced.ofExcept (.error .attributeError)
  p.symmSquareBlock (vmk fk.D fun i => vmk fk.D fun j => blocked i j)

/-- `_gen_coreg_Ks`, grid_kernel.py 83-100 -/
noncomputable def Prices.genCoregKs (fk : FK) (tops : List (List ℝ)) (sizes : List ℕ) (m : ℕ) (ad : List ℕ) : Except PyErr Priced := do
  let kidxs ← dictIdx fk.activeDims ad
  let nonIndep := fk.filterNonIndep kidxs
  let allCoreg := nonIndep.map fun q => fk.coregVecs.getD q ⟨0, 0, []⟩
  if allCoreg = [] then pricedIdentity m
  else do
    let ranks := allCoreg.map Arr2.rows
    let AStar := (npVstack allCoreg).T
    let Im ← pricedIdentity sizes.prod
    let a ← p.numpyMatrix AStar
    let left ← pricedKronecker a Im
    let at' ← p.numpyMatrix AStar.T
    let right ← pricedKronecker at' Im
    let dedupedToeps ← mapExcept (p.bttb sizes) (tops.take allCoreg.length)
    let toeps ← pricedBlockDiag (npRepeat dedupedToeps ranks)
    pricedComposition [left, toeps, right]

/-- `_gen_diag_Ks`, grid_kernel.py 103-112 -/
noncomputable def Prices.genDiagKs (fk : FK) (tops : List (List ℝ)) (sizes : List ℕ) (m : ℕ) (ad : List ℕ) : Except PyErr Priced := do
  let nl ← dictIdx fk.numLmc ad
  let ni ← dictIdx fk.numIndep ad
  if nl = 0 ∧ ni = 0 then pricedIdentity m
  else do
    let kidxs ← dictIdx fk.activeDims ad
    let diags := kidxs.map fun q => fk.coregDiags.getD q []
    if tops.length ≠ kidxs.length then .error .assertionError
    else do
      let diagTops := vmk fk.D fun d => vmk sizes.prod fun k => ((diags.zip tops).map fun dt => dt.1.getD d 0 * dt.2.getD k 0).sum
      let blocks ← mapExcept (p.bttb sizes) diagTops
      pricedBlockDiag blocks

/-- `_gen_slfm_grid`, grid_kernel.py 77-80 -/
noncomputable def Prices.genSlfmGrid (fk : FK) (tops : List (List ℝ)) (sizes : List ℕ) (m : ℕ) (ad : List ℕ) : Except PyErr Priced := do
  let coregKs ← p.genCoregKs fk tops sizes m ad
  let diagKs ← p.genDiagKs fk tops sizes m ad
  p.sumMatrix [coregKs, diagKs]

/-- the `grid_K` of a `GridKernel`, grid_kernel.py 30-38 -/
noncomputable def Prices.genGridK (fk : FK) (tops : List (List ℝ)) (sizes : List ℕ) (m : ℕ) (kt : KType) (ad : List ℕ) : Except PyErr Priced :=
  match kt with
  | .sum => p.genSumGrid fk tops sizes ad
  | .bt => p.genBtGrid fk tops sizes ad
  | .slfm => p.genSlfmGrid fk tops sizes m ad

/-- `GridKernel`, grid_kernel.py 22-44: `matvec` is that of the `SKI` matrix, `matmat` the default -/
noncomputable def Prices.gridKernelNew (fk : FK) (dists : NDArr ℝ) (W WT : Arr2 ℝ) (stored : ℕ) (kt : KType) (ad : List ℕ) : Except PyErr Priced := do
  matrixInit W.rows W.rows
  let vals ← fk.evalKernelsFixedDim (.arr dists) ad
  let (tops, sizes) ← stackTops vals
  let gridK ← p.genGridK fk tops sizes W.cols kt ad
  let ski ← p.ski gridK W WT stored
  let mm := defaultMatmat W.rows ski.obj.matvec
  return .loop { rows := W.rows, cols := W.rows, matvec := ski.obj.matvec, matmat := mm, asNumpy := mm (Arr2.eye W.rows),
                 upperEigBound := .error .attributeError } ski.mv

/-- one pass of the loop in `gen_grid_kernel`, grid_kernel.py 51-68 -/
noncomputable def Prices.gridKernelFor (fk : FK) (dists : List (List ℕ × NDArr ℝ)) (interp : List (List ℕ × (Arr2 ℝ × Arr2 ℝ))) (stored : List ℕ → ℕ)
    (ad : List ℕ) : Except PyErr Priced := do
  let kt ← chooseKType fk ad
  let d ← dictIdx dists ad
  let WW ← dictIdx interp ad
  p.gridKernelNew fk d WW.1 WW.2 (stored ad) kt ad

/-- `gen_grid_kernel`, grid_kernel.py 49-74; the sparse interpolation matrix of a group `ad` has `stored ad` entries -/
noncomputable def Prices.genGridKernel (fk : FK) (dists : List (List ℕ × NDArr ℝ)) (interp : List (List ℕ × (Arr2 ℝ × Arr2 ℝ))) (stored : List ℕ → ℕ)
    (lens : List ℕ) : Except PyErr Priced := do
  let gks ← mapExcept (p.gridKernelFor fk dists interp stored) (fk.activeDims.map Prod.fst)
  let noise ← p.diag (npRepeat fk.noise lens)
  p.sumMatrix (gks ++ [noise])

end Verif
