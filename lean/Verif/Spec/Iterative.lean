import Verif.Spec.Likelihood
import Verif.Model.Iterative

/-! Specification vocabulary for the iterative solves. -/

namespace Verif

/-- the Euclidean norm of `y - A x` -/
noncomputable def resNorm (n : ℕ) (A : ℕ → ℕ → ℝ) (y x : List ℝ) : ℝ :=
  Real.sqrt (∑ i : Fin n, (toVec n y i - (fnMatrix n n A).mulVec (toVec n x) i) ^ 2)

/-- `K` is an operator for the `n × n` matrix with entries `A` -/
structure SquareOp (K : MatObj) (n : ℕ) (A : ℕ → ℕ → ℝ) : Prop where
  rep : Represents K A
  rows : K.rows = n
  cols : K.cols = n

/-- a run producing vectors of length `n` -/
def KrylovRun.Fits (r : KrylovRun) (n : ℕ) : Prop := (∀ x ∈ r.iterates, x.length = n) ∧ r.x.length = n

/-- the methods return vectors of the right length -/
def Solvers.Fit (s : Solvers) : Prop := ∀ K y tol it, (s.minres K y tol it).Fits y.length ∧ (s.cg K y tol it).Fits y.length

/-- at iteration `k` the early termination test of `solve` passes -/
def EarlyAt (n : ℕ) (A : ℕ → ℕ → ℝ) (y : List ℝ) (tol : ℝ) (iterates : List (List ℝ)) (k : ℕ) : Prop :=
  0 < k ∧ k ≤ iterates.length ∧ 100 ∣ k ∧ resNorm n A y (iterates.getD (k - 1) []) < tol

/-- `solve(K, b, ...)` returns the exact solution `A⁻¹ b` for every `b` -/
def ExactSolves (s : Solvers) (K : MatObj) (n : ℕ) (A : ℕ → ℕ → ℝ) (tol : ℝ) : Prop :=
  ∀ b : List ℝ, b.length = n → ∃ x logged, iterativeSolve s K b false true tol = .ok (.plain x, logged) ∧ x.length = n ∧
    toVec n x = (fnMatrix n n A)⁻¹.mulVec (toVec n b)

/-- a pool that eventually finishes every one of `len` tasks (or no pool) -/
def PoolArg.Works (p : PoolArg) (len : ℕ) : Prop :=
  ∀ size schedule, p = .pool size schedule → 0 < size ∧ schedule.Perm (List.range (nchunks len size))

/-- random bits given as a finite table -/
def tableBits {m n : ℕ} (z : Fin m → Fin n → Bool) (k i : ℕ) : Bool := if h : k < m ∧ i < n then z ⟨k, h.1⟩ ⟨i, h.2⟩ else false

/-- what `generate` stores and records -/
structure Generated (sv : Solvers) (s : DerivService) (metrics : Option Metrics) (z : ℕ → ℕ → Bool) (K : MatObj) (n : ℕ) (A : ℕ → ℕ → ℝ) (y : List ℝ)
    (d : StochDeriv) (metrics' : Option Metrics) : Prop where
  nIt : d.nIt = s.nIt
  probes : d.rs.length = s.nIt ∧ d.invRs.length = s.nIt
  signs : ∀ k < s.nIt, (d.rs.getD k []).length = n ∧ ∀ i < n, (d.rs.getD k []).getD i 0 = if z k i then 1 else -1
  alpha : ∃ lg, iterativeSolve sv K y false true s.tol = .ok (.plain d.alpha, lg)
  solved : ∀ k < s.nIt, ∃ lg, iterativeSolve sv K (d.rs.getD k []) false true s.tol = .ok (.plain (d.invRs.getD k []), lg)
  off : metrics = none → metrics' = none
  on : ∀ m, metrics = some m → ∃ its errs : List ℝ, metrics' = some { m with iterations := m.iterations ++ [its.sum / (s.nIt + 1)], solvError := m.solvError ++ [errs.sum / (s.nIt + 1)] } ∧
    its.length = s.nIt + 1 ∧ errs.length = s.nIt + 1 ∧ ∀ k < s.nIt + 1, ∃ ctr lg,
      iterativeSolve sv K ((y :: d.rs).getD k []) true true s.tol = .ok (.verbose ((d.alpha :: d.invRs).getD k []) ctr (errs.getD k 0), lg) ∧
        its.getD k 0 = ctr ∧ errs.getD k 0 = resNorm n A ((y :: d.rs).getD k []) ((d.alpha :: d.invRs).getD k [])

end Verif
