import Verif.Model.FunctionalKernel
import Verif.Model.BTTB
import Mathlib.Analysis.SpecialFunctions.Sqrt

/-! `runlmc/lmc/grid_kernel.py`, and the grid distances of `runlmc/models/interpolated_llgp.py`. -/

namespace Verif

/-- `la.norm(v)` of a 1-D array -/
noncomputable def laNorm (v : List ℝ) : ℝ := Real.sqrt (v.map (· ^ 2)).sum

/-- `u - v` for 1-D arrays -/
def vsub (u v : List ℝ) : List ℝ := List.zipWith (· - ·) u v

/-- interpolated_llgp.py 423-431: the distances of all grid points from the first one, an array with one axis per
dimension. `grid[0]` of an empty grid is an IndexError. -/
noncomputable def gridDists (axes : List (List ℝ)) : Except PyErr (NDArr ℝ) :=
  let grid := cartesianProduct axes
  match grid with
  | [] => .error .indexError
  | first :: _ => .ok ⟨axes.map List.length, grid.map fun u => laNorm (vsub u first)⟩

/-- `np.array([...])` of `eval_kernels_fixed_dim`, functional_kernel.py 245: the ravelled slices `grid_k[q]` and the common shape
`grid_k.shape[1:]`. Stacking NaNs or different shapes is a ValueError (numpy; older versions build an object array). -/
def stackTops : List KVal → Except PyErr (List (List ℝ) × List ℕ)
  | [] => .error .valueError
  | [.arr a] => .ok ([a.data], a.shape)
  | .arr a :: rest => do
    let (tops, sizes) ← stackTops rest
    if a.shape = sizes then return (a.data :: tops, sizes) else .error .valueError
  | .nan :: _ => .error .valueError

/-- `BTTB(top, sizes)` for a ravelled slice -/
noncomputable def gridBttb (sizes : List ℕ) (top : List ℝ) : Except PyErr MatObj := bttbNew (.vec top) (.vec sizes)

/-- `NumpyMatrix(A)` -/
noncomputable def numpyMatrix2 (A : Arr2 ℝ) : Except PyErr MatObj := numpyMatrixNew ⟨[A.rows, A.cols], A.data⟩

/-- one summand `Kronecker(NumpyMatrix(A), K)`, grid_kernel.py 133-134 -/
noncomputable def kronOf (AK : Arr2 ℝ × MatObj) : Except PyErr MatObj := do
  let A ← numpyMatrix2 AK.1
  kroneckerNew A AK.2

/-- `_gen_sum_grid`, grid_kernel.py 126-136. -/
noncomputable def genSumGrid (fk : FK) (tops : List (List ℝ)) (sizes : List ℕ) (ad : List ℕ) : Except PyErr MatObj := do
  let kernelsOnGrid ← mapExcept (gridBttb sizes) tops
  let mats ← fk.coregMatsAt ad
  let products ← mapExcept kronOf (mats.zip kernelsOnGrid)
  sumMatrixNew products

/-- `np.tensordot(Bs, tops, axes=(0, 0))[i, j]`, grid_kernel.py 119 -/
noncomputable def tensorTop (Bs : List (Arr2 ℝ)) (tops : List (List ℝ)) (m i j : ℕ) : List ℝ :=
  vmk m fun k => ((Bs.zip tops).map fun Bt => Bt.1.get i j * Bt.2.getD k 0).sum

/-- a successful result; only used after all computations are known to succeed -/
noncomputable def MatObj.ofExcept (e : Except PyErr MatObj) : MatObj :=
  match e with
  | .ok M => M
  | .error _ => ⟨0, 0, id, id, ⟨0, 0, []⟩, .error .attributeError⟩

/-- `_gen_bt_grid`, grid_kernel.py 115-123: `BTTB` is called for `i ≤ j` and the results mirrored. -/
noncomputable def genBtGrid (fk : FK) (tops : List (List ℝ)) (sizes : List ℕ) (ad : List ℕ) : Except PyErr MatObj := do
  let Bs ← fk.coregMatsAt ad
  let bt := tensorTop Bs tops sizes.prod
  let _ ← seqAll ((List.range fk.D).flatMap fun i => (List.range' i (fk.D - i)).map fun j => gridBttb sizes (bt i j))
  let blocked := symm2dListMap (fun top => MatObj.ofExcept (gridBttb sizes top)) bt fk.D
    fun _ _ => MatObj.ofExcept (.error .attributeError)
  symmSquareBlockNew (vmk fk.D fun i => vmk fk.D fun j => blocked i j)

/-- `np.vstack` of 2-D arrays with equal widths -/
def npVstack (arrs : List (Arr2 ℝ)) : Arr2 ℝ :=
  ⟨(arrs.map Arr2.rows).sum, (arrs.headD ⟨0, 0, []⟩).cols, arrs.flatMap Arr2.data⟩

/-- `_gen_coreg_Ks`, grid_kernel.py 83-100. -/
noncomputable def genCoregKs (fk : FK) (tops : List (List ℝ)) (sizes : List ℕ) (m : ℕ) (ad : List ℕ) : Except PyErr MatObj := do
  let kidxs ← dictIdx fk.activeDims ad
  let nonIndep := fk.filterNonIndep kidxs
  let allCoreg := nonIndep.map fun q => fk.coregVecs.getD q ⟨0, 0, []⟩
  if allCoreg = [] then identityNew m
  else do
    let ranks := allCoreg.map Arr2.rows
    let AStar := (npVstack allCoreg).T
    let Im ← identityNew sizes.prod
    let a ← numpyMatrix2 AStar
    let left ← kroneckerNew a Im
    let at' ← numpyMatrix2 AStar.T
    let right ← kroneckerNew at' Im
    let dedupedToeps ← mapExcept (gridBttb sizes) (tops.take allCoreg.length)
    let toeps ← blockDiagNew (npRepeat dedupedToeps ranks)
    compositionNew [left, toeps, right]

/-- `_gen_diag_Ks`, grid_kernel.py 103-112. -/
noncomputable def genDiagKs (fk : FK) (tops : List (List ℝ)) (sizes : List ℕ) (m : ℕ) (ad : List ℕ) : Except PyErr MatObj := do
  let nl ← dictIdx fk.numLmc ad
  let ni ← dictIdx fk.numIndep ad
  if nl = 0 ∧ ni = 0 then identityNew m
  else do
    let kidxs ← dictIdx fk.activeDims ad
    let diags := kidxs.map fun q => fk.coregDiags.getD q []
    if tops.length ≠ kidxs.length then .error .assertionError
    else do
      let diagTops := vmk fk.D fun d => vmk sizes.prod fun k => ((diags.zip tops).map fun dt => dt.1.getD d 0 * dt.2.getD k 0).sum
      let blocks ← mapExcept (gridBttb sizes) diagTops
      blockDiagNew blocks

/-- `_gen_slfm_grid`, grid_kernel.py 77-80. -/
noncomputable def genSlfmGrid (fk : FK) (tops : List (List ℝ)) (sizes : List ℕ) (m : ℕ) (ad : List ℕ) : Except PyErr MatObj := do
  let coregKs ← genCoregKs fk tops sizes m ad
  let diagKs ← genDiagKs fk tops sizes m ad
  sumMatrixNew [coregKs, diagKs]

/-- the representations of grid_kernel.py 30-40 -/
inductive KType where
  | sum | bt | slfm
  deriving DecidableEq

/-- A `GridKernel` instance: the operator and its `grid_K` attribute, grid_kernel.py 22-44. -/
structure GridKernelObj where
  obj : MatObj
  gridK : MatObj

/-- the `grid_K` of a `GridKernel`, grid_kernel.py 30-38 -/
noncomputable def genGridK (fk : FK) (tops : List (List ℝ)) (sizes : List ℕ) (m : ℕ) (kt : KType) (ad : List ℕ) : Except PyErr MatObj :=
  match kt with
  | .sum => genSumGrid fk tops sizes ad
  | .bt => genBtGrid fk tops sizes ad
  | .slfm => genSlfmGrid fk tops sizes m ad

/-- `GridKernel.__init__` and methods, grid_kernel.py 22-44. `matmat` and `as_numpy` are the defaults of `Matrix`. -/
noncomputable def gridKernelNew (fk : FK) (dists : NDArr ℝ) (W WT : Arr2 ℝ) (kt : KType) (ad : List ℕ) : Except PyErr GridKernelObj := do
  matrixInit W.rows W.rows
  let vals ← fk.evalKernelsFixedDim (.arr dists) ad
  let (tops, sizes) ← stackTops vals
  let gridK ← genGridK fk tops sizes W.cols kt ad
  let ski ← skiNew gridK W WT
  let mm := defaultMatmat W.rows ski.matvec
  return { obj := { rows := W.rows, cols := W.rows, matvec := ski.matvec, matmat := mm, asNumpy := mm (Arr2.eye W.rows),
                    upperEigBound := .error .attributeError },
           gridK := gridK }

/-- the choice of representation, grid_kernel.py 52-64 -/
def chooseKType (fk : FK) (ad : List ℕ) : Except PyErr KType :=
  if fk.Q = 1 then .ok .sum
  else do
    let totRank ← fk.totalRank ad
    let nl ← dictIdx fk.numLmc ad
    let ni ← dictIdx fk.numIndep ad
    let corr := if nl = 0 ∧ ni = 0 then fk.D else 0
    if totRank + fk.D < fk.D ^ 2 + corr then return .slfm else return .bt

/-- grid_kernel.py 51-68: one pass of the loop -/
noncomputable def gridKernelFor (fk : FK) (dists : List (List ℕ × NDArr ℝ)) (interp : List (List ℕ × (Arr2 ℝ × Arr2 ℝ))) (ad : List ℕ) :
    Except PyErr GridKernelObj := do
  let kt ← chooseKType fk ad
  let d ← dictIdx dists ad
  let WW ← dictIdx interp ad
  gridKernelNew fk d WW.1 WW.2 kt ad

/-- `gen_grid_kernel`, grid_kernel.py 49-74. Interpolants are sparse matrices, modelled by their dense meaning. -/
noncomputable def genGridKernel (fk : FK) (dists : List (List ℕ × NDArr ℝ)) (interp : List (List ℕ × (Arr2 ℝ × Arr2 ℝ)))
    (lens : List ℕ) : Except PyErr (MatObj × List (List ℕ × GridKernelObj)) := do
  let ads := fk.activeDims.map Prod.fst
  let gks ← mapExcept (gridKernelFor fk dists interp) ads
  let noise ← diagNew (.vec (npRepeat fk.noise lens))
  let K ← sumMatrixNew (gks.map GridKernelObj.obj ++ [noise])
  return (K, ads.zip gks)

end Verif
