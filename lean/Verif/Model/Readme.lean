import Verif.Model.LLGPState

/-! The snippet of README.md. -/

namespace Verif

/-- The call of `FunctionalKernel` in the snippet, README.md 41-43: `nout` kernels `RBF(name=…)`, all with the default inverse length scale 1 (rbf.py 33),
and the list `ranks`, which is `[1]` in the snippet. The names of the kernels are not modelled. -/
def readmeKernelArgs (nout : ℕ) (ranks : List ℤ) (outputs : ℕ) : FKArgs :=
  ⟨some outputs, some ((List.range nout).map fun _ => .rbf 1 none), some ranks, none, none, none⟩

/-- The call of the model in the snippet, README.md 44, with the defaults of interpolated_llgp.py 128-132. The snippet calls the class `LMC`; the class of that
signature is `InterpolatedLLGP`. `xss` and `yss` are one-dimensional arrays. -/
noncomputable def readmeModelArgs (xss yss : List (List ℝ)) (fk : FK) : LLGPArgs :=
  ⟨xss.map fun x => ⟨[x.length], x⟩, yss.map fun y => ⟨[y.length], y⟩, true, .none, .none, .none, false, "on-the-fly", 15, 1e-4, some fk⟩

/-- The snippet up to its first plot, README.md 41-44, with the data as arguments: the program it runs, or what it raises before there is a model. `rand` is what
`np.random.randn` gives for the coregionalisation vectors. -/
noncomputable def readmeSnippet (rand : ℕ → ℕ → ℕ → ℝ) (nout : ℕ) (ranks : List ℤ) (xss yss : List (List ℝ)) (e : Env) : Except PyErr (List Op) := do
  let fk ← fkNew rand (readmeKernelArgs nout ranks xss.length)
  return [.new (readmeModelArgs xss yss fk) e]

end Verif
