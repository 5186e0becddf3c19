import Verif.Model.LLGPState

/-! Assignments to `noise`, `coreg_vecs` and `coreg_diags` of a functional kernel: functional_kernel.py 255-278. -/

namespace Verif

/-- one parameter array of a functional kernel: the noise, or the coregionalization vectors or `kappa` of kernel `q` -/
inductive Target where
  | noise
  | vec (q : ℕ)
  | diag (q : ℕ)
  deriving DecidableEq

/-- an assignment to a property of a functional kernel: functional_kernel.py 258-260 (`noise = v`), 266-269 (`coreg_vecs = vs`) and 275-278
(`coreg_diags = vs`) -/
inductive Setting where
  | noise (v : NDArr ℝ)
  | vecs (vs : List (NDArr ℝ))
  | diags (vs : List (NDArr ℝ))

/-- numpy ignores leading dimensions of length 1 of the value in an assignment -/
def stripOnes : List ℕ → List ℕ
  | 1 :: l => stripOnes l
  | l => l

/-- `a[:] = v` for a 1-D array `a` of length `n`: the new contents. numpy's broadcasting of values of at most one dimension. External. -/
def fill1 (n : ℕ) (v : NDArr ℝ) : Except PyErr (List ℝ) :=
  match stripOnes v.shape with
  | [] => .ok (vmk n fun _ => v.data.getD 0 0)
  | [k] => if k = n then .ok (vmk n fun i => v.data.getD i 0) else .error .valueError
  | _ => .error .valueError

/-- `a[:] = v` for a 2-D array `a` of shape `(r, c)`: the new contents. numpy's broadcasting of values of at most two dimensions. External. -/
def fill2 (r c : ℕ) (v : NDArr ℝ) : Except PyErr (Arr2 ℝ) :=
  match stripOnes v.shape with
  | [] => .ok (Arr2.of r c fun _ _ => v.data.getD 0 0)
  | [k] => if k = c then .ok (Arr2.of r c fun _ j => v.data.getD j 0) else .error .valueError
  | [a, b] =>
    if a = r then
      if b = c then .ok (Arr2.of r c fun i j => v.data.getD (i * c + j) 0)
      else if b = 1 then .ok (Arr2.of r c fun i _ => v.data.getD i 0)
      else .error .valueError
    else .error .valueError
  | _ => .error .valueError

/-- `param[:] = v` for one of the arrays -/
def FK.assign (fk : FK) : Target → NDArr ℝ → Except PyErr FK
  | .noise, v => do
    let x ← fill1 fk.noise.length v
    return { fk with noise := x }
  | .vec q, v => do
    let x ← fill2 (fk.coregVecs.getD q ⟨0, 0, []⟩).rows (fk.coregVecs.getD q ⟨0, 0, []⟩).cols v
    return { fk with coregVecs := fk.coregVecs.set q x }
  | .diag q, v => do
    let x ← fill1 (fk.coregDiags.getD q []).length v
    return { fk with coregDiags := fk.coregDiags.set q x }

/-- the loops of functional_kernel.py 268-269 and 277-278: `zip` stops with the shorter of the two lists -/
def Setting.pairs (fk : FK) : Setting → List (Target × NDArr ℝ)
  | .noise v => [(.noise, v)]
  | .vecs vs => ((List.range fk.coregVecs.length).map Target.vec).zip vs
  | .diags vs => ((List.range fk.coregDiags.length).map Target.diag).zip vs

/-- assigns one array after the other; what was assigned before an exception stays -/
def FK.assignAll (fk : FK) : List (Target × NDArr ℝ) → Except PyErr Unit × FK
  | [] => (.ok (), fk)
  | p :: ps => match fk.assign p.1 p.2 with
    | .ok fk' => fk'.assignAll ps
    | .error e => (.error e, fk)

/-- the assignment, when the kernel is not part of a model -/
def FK.apply (fk : FK) (s : Setting) : Except PyErr Unit × FK := fk.assignAll (s.pairs fk)

/-- several assignments, up to the first that raises -/
def FK.applyAll (fk : FK) : List Setting → Except PyErr Unit × FK
  | [] => (.ok (), fk)
  | s :: ss => match fk.apply s with
    | (.ok _, fk') => fk'.applyAll ss
    | (.error e, fk') => (.error e, fk')

/-- the arrays that are linked parameters, functional_kernel.py 131, 185-186 and 198: only those tell the model about assignments (paramz) -/
def FK.links (fk : FK) : Target → Bool
  | .noise => true
  | .vec q => q < fk.linkedVecs
  | .diag q => q < fk.linkedDiags

/-- `param[:] = v` for an array of the kernel of model `i`: paramz calls `parameters_changed` of the model if the array is a linked parameter.
`e` are the circumstances of that update. -/
noncomputable def assignM (useCache : Bool) (sv : Solvers) (e : Env) (i : ℕ) (p : Target × NDArr ℝ) : PyM Unit := do
  let m ← self i
  let fk' ← PyM.lift (m.fk.assign p.1 p.2)
  modifySelf i fun m => { m with fk := fk' }
  if m.fk.links p.1 then parametersChanged useCache sv e i else return ()

/-- the loop over the arrays; `es k` are the circumstances of the `k`-th assignment -/
noncomputable def assignAllM (useCache : Bool) (sv : Solvers) (es : ℕ → Env) (i : ℕ) : ℕ → List (Target × NDArr ℝ) → PyM Unit
  | _, [] => return ()
  | k, p :: ps => do
    assignM useCache sv (es k) i p
    assignAllM useCache sv es i (k + 1) ps

/-- the assignment, when the kernel is that of model `i` -/
noncomputable def settingM (useCache : Bool) (sv : Solvers) (es : ℕ → Env) (i : ℕ) (s : Setting) : PyM Unit := do
  let m ← self i
  assignAllM useCache sv es i 0 (s.pairs m.fk)

end Verif
