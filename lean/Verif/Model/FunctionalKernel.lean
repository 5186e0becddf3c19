import Verif.Model.Kern
import Verif.Model.NumpyUtil
import Verif.Model.Interp
import Mathlib.Data.List.Sort

/-! `runlmc/lmc/functional_kernel.py` -/

namespace Verif

/-! ### python dicts (insertion-ordered) -/

/-- `d.get(k)` -/
def dictGet {α β : Type} [DecidableEq α] : List (α × β) → α → Option β
  | [], _ => none
  | (a, b) :: d, k => if a = k then some b else dictGet d k

/-- `d[k] = v`: replaces in place or appends -/
def dictSet {α β : Type} [DecidableEq α] : List (α × β) → α → β → List (α × β)
  | [], k, v => [(k, v)]
  | (a, b) :: d, k, v => if a = k then (a, v) :: d else (a, b) :: dictSet d k v

/-- `d[k]` -/
def dictIdx {α β : Type} [DecidableEq α] (d : List (α × β)) (k : α) : Except PyErr β :=
  match dictGet d k with
  | some v => .ok v
  | none => .error .keyError

/-- A `FunctionalKernel` instance: functional_kernel.py 93-131. Parameter arrays hold the current values
(`coregVecs[q]` is the `r_q × D` array `a<q>`, `coregDiags[q]` is `kappa<q>`). -/
structure FK where
  D : ℕ
  kernels : List Kern
  coregVecs : List (Arr2 ℝ)
  coregDiags : List (List ℝ)
  noise : List ℝ
  /-- how many entries of `coregVecs` are linked parameters (functional_kernel.py 185-186) -/
  linkedVecs : ℕ
  /-- how many entries of `coregDiags` are linked parameters (functional_kernel.py 198) -/
  linkedDiags : ℕ
  numLmcTotal : ℕ
  numSlfmTotal : ℕ
  P : Option ℕ
  activeDims : List (List ℕ × List ℕ)
  numLmc : List (List ℕ × ℕ)
  numSlfm : List (List ℕ × ℕ)
  numIndep : List (List ℕ × ℕ)

/-- The constructor arguments; `none` is python's `None`. -/
structure FKArgs where
  D : Option ℤ
  lmcKernels : Option (List Kern)
  lmcRanks : Option (List ℤ)
  slfmKernels : Option (List Kern)
  indepGp : Option (List Kern)
  indepGpIndex : Option (List ℤ)

/-- `not x` for an optional list -/
def falsy {α : Type} : Option (List α) → Bool
  | none => true
  | some l => l.isEmpty

/-- `len(x)`: TypeError for `None` -/
def lenOpt {α : Type} : Option (List α) → Except PyErr ℕ
  | none => .error .typeError
  | some l => .ok l.length

/-- `np.zeros(D); coreg_diag[d] = 1`, functional_kernel.py 206-207: negative indices count from the end. -/
noncomputable def unitDiag (D : ℕ) (d : ℤ) : Except PyErr (List ℝ) :=
  let i := if d < 0 then d + D else d
  if 0 ≤ i ∧ i < D then .ok (vmk D fun j => if j = i.toNat then 1 else 0)
  else .error .indexError

/-- `_initialize_Aq`, functional_kernel.py 169-188. `rand q` is the array drawn for kernel `q`. A negative `D` is an error from
numpy/scipy before this point matters (see `fkNew`). -/
noncomputable def initAq (rand : ℕ → ℕ → ℕ → ℝ) (D : ℕ) (lmcRanks : List ℤ) (numSlfm numIndep : ℕ) : List (Arr2 ℝ) :=
  vmk (lmcRanks.length + numSlfm + numIndep) fun q =>
    if q < lmcRanks.length then Arr2.of (lmcRanks.getD q 0).toNat D (rand q)
    else if q < lmcRanks.length + numSlfm then Arr2.of 1 D (rand q)
    else Arr2.zeros 1 D

/-- `_initialize_kq`, functional_kernel.py 190-210. -/
noncomputable def initKq (D : ℕ) (numLmc numSlfm : ℕ) (indepIdx : List ℤ) : Except PyErr (List (List ℝ)) := do
  let indep ← mapExcept (unitDiag D) indepIdx
  return vmk numLmc (fun _ => vmk D fun _ => 1) ++ vmk numSlfm (fun _ => vmk D fun _ => 0) ++ indep

/-- `indep_gp_index or range(len(indep_gp))`, functional_kernel.py 107 -/
def indexOrRange (idx : Option (List ℤ)) (n : ℕ) : List ℤ :=
  match idx with
  | some (a :: l) => a :: l
  | _ => vmk n fun i => (i : ℤ)

/-- `FunctionalKernel.__init__`, functional_kernel.py 86-131. A negative `D` makes the first array allocation a ValueError.
paramz's own errors (linking one kernel object twice) are not modelled. -/
noncomputable def fkNew (rand : ℕ → ℕ → ℕ → ℝ) (a : FKArgs) : Except PyErr FK :=
  match a.D with
  | none => .error .valueError
  | some D =>
    if D = 0 then .error .valueError
    else if falsy a.lmcKernels ∧ falsy a.slfmKernels ∧ falsy a.indepGp then .error .valueError
    else do
      let nk ← lenOpt a.lmcKernels
      let nr ← lenOpt a.lmcRanks
      if nk ≠ nr then .error .valueError
      else
        let ranks := a.lmcRanks.getD []
        if ¬ ∀ r ∈ ranks, 0 < r then .error .valueError
        else
          let lmc := a.lmcKernels.getD []
          let slfm := a.slfmKernels.getD []
          let indep := a.indepGp.getD []
          let idx := indexOrRange a.indepGpIndex indep.length
          if indep.length ≠ idx.length then .error .valueError
          else if D < 0 then .error .valueError
          else do
            let D := D.toNat
            let diags ← initKq D lmc.length slfm.length idx
            return { D := D, kernels := lmc ++ slfm ++ indep,
                     coregVecs := initAq rand D ranks slfm.length indep.length,
                     coregDiags := diags, noise := vmk D fun _ => 0.1,
                     linkedVecs := ranks.length + slfm.length, linkedDiags := lmc.length,
                     numLmcTotal := lmc.length, numSlfmTotal := slfm.length,
                     P := none, activeDims := [], numLmc := [], numSlfm := [], numIndep := [] }

/-- the active dimensions a kernel gets in `set_input_dim`, functional_kernel.py 151-156 -/
def resolveDims (P : ℕ) (k : Kern) : List ℕ :=
  match k.activeDims with
  | none => List.range P
  | some l => l.mergeSort (· ≤ ·)

/-- `_count`, functional_kernel.py 139-142 -/
def countKey (d : List (List ℕ × ℕ)) (k : List ℕ) : List (List ℕ × ℕ) := dictSet d k ((dictGet d k).getD 0 + 1)

/-- functional_kernel.py 152-163: one pass of the loop over the kernels. -/
def setDimStep (P : ℕ) (fk : FK) (i : ℕ) (k : Kern) : FK :=
  let key := resolveDims P k
  let fk := { fk with
    kernels := fk.kernels.set i (k.setActiveDims (some key))
    activeDims := dictSet fk.activeDims key ((dictGet fk.activeDims key).getD [] ++ [i]) }
  if i < fk.numLmcTotal then { fk with numLmc := countKey fk.numLmc key }
  else if i < fk.numLmcTotal + fk.numSlfmTotal then { fk with numSlfm := countKey fk.numSlfm key }
  else { fk with numIndep := countKey fk.numIndep key }

/-- functional_kernel.py 164-167: missing counts become zero. -/
def fillZeros (keys : List (List ℕ)) (d : List (List ℕ × ℕ)) : List (List ℕ × ℕ) :=
  keys.foldl (fun d k => match dictGet d k with | some _ => d | none => dictSet d k 0) d

/-- `set_input_dim`, functional_kernel.py 144-167. -/
def FK.setInputDim (fk : FK) (P : ℕ) : Except PyErr FK :=
  if fk.P = some P then .ok fk
  else if fk.P ≠ none then .error .valueError
  else
    let fk0 := { fk with P := some P }
    let fk1 := (vmk fk.kernels.length fun i => (i, fk.kernels.getD i (.identity none))).foldl
      (fun s ik => setDimStep P s ik.1 ik.2) fk0
    let keys := fk1.activeDims.map Prod.fst
    .ok { fk1 with numLmc := fillZeros keys fk1.numLmc, numSlfm := fillZeros keys fk1.numSlfm,
                   numIndep := fillZeros keys fk1.numIndep }

/-- `assert self.P` (also fails for `P == 0`) -/
def FK.assertP (fk : FK) : Except PyErr Unit :=
  match fk.P with
  | none => .error .assertionError
  | some P => if P = 0 then .error .assertionError else .ok ()

/-- `total_rank`, functional_kernel.py 225-232. -/
def FK.totalRank (fk : FK) (ad : List ℕ) : Except PyErr ℕ := do
  fk.assertP
  let idxs ← dictIdx fk.activeDims ad
  return idxs.foldl (fun r q => if q < fk.numLmcTotal + fk.numSlfmTotal then r + (fk.coregVecs.getD q ⟨0, 0, []⟩).rows else r) 0

/-- `np.diag(v)` of a 1-D array -/
def npDiagMat (v : List ℝ) : Arr2 ℝ := Arr2.of v.length v.length fun i j => if i = j then v.getD i 0 else 0

/-- `a.T.dot(a) + np.diag(k)`, functional_kernel.py 287 -/
noncomputable def coregMat (a : Arr2 ℝ) (k : List ℝ) : Arr2 ℝ := (a.T.dot a).add (npDiagMat k)

/-- `coreg_mats()`, functional_kernel.py 280-287, without an argument -/
noncomputable def FK.coregMats (fk : FK) : List (Arr2 ℝ) := List.zipWith coregMat fk.coregVecs fk.coregDiags

/-- `coreg_mats(active_dim)`, functional_kernel.py 280-287 -/
noncomputable def FK.coregMatsAt (fk : FK) (ad : List ℕ) : Except PyErr (List (Arr2 ℝ)) := do
  let idxs ← dictIdx fk.activeDims ad
  return List.zipWith coregMat (idxs.map fun q => fk.coregVecs.getD q ⟨0, 0, []⟩) (idxs.map fun q => fk.coregDiags.getD q [])

/-- `Q`, functional_kernel.py 289-291 -/
def FK.Q (fk : FK) : ℕ := fk.kernels.length

/-- `get_active_dims`, functional_kernel.py 293-295, after `set_input_dim` (`None` would be a KeyError when used as a key) -/
def FK.getActiveDims (fk : FK) (q : ℕ) : Except PyErr (List ℕ) :=
  match fk.kernels[q]? with
  | none => .error .indexError
  | some k => match k.activeDims with
    | some d => .ok d
    | none => .error .keyError

/-- `filter_non_indep_idxs`, functional_kernel.py 297-302. -/
def FK.filterNonIndep (fk : FK) (idxs : List ℕ) : List ℕ := idxs.filter fun q => q < fk.numLmcTotal + fk.numSlfmTotal

/-- `dists[k.active_dims]` -/
def distsFor (dists : List (List ℕ × DistArg)) (k : Kern) : Except PyErr DistArg :=
  match k.activeDims with
  | none => .error .keyError
  | some d => dictIdx dists d

/-- `eval_kernels`, functional_kernel.py 234-239. -/
noncomputable def FK.evalKernels (fk : FK) (dists : List (List ℕ × DistArg)) : Except PyErr (List KVal) := do
  fk.assertP
  mapExcept (fun k => do let d ← distsFor dists k; k.fromDist d) fk.kernels

/-- `eval_kernels_fixed_dim`, functional_kernel.py 241-246, before `np.array` stacks the results -/
noncomputable def FK.evalKernelsFixedDim (fk : FK) (d : DistArg) (ad : List ℕ) : Except PyErr (List KVal) := do
  let idxs ← dictIdx fk.activeDims ad
  mapExcept (fun q => (fk.kernels.getD q (.identity none)).fromDist d) idxs

/-- `eval_kernel_gradients`, functional_kernel.py 248-252. -/
noncomputable def FK.evalKernelGradients (fk : FK) (dists : List (List ℕ × DistArg)) : Except PyErr (List (List KVal)) := do
  fk.assertP
  mapExcept (fun k => do let d ← distsFor dists k; k.kernelGradient d) fk.kernels

end Verif
