import Verif.Model.BTTB
import Verif.Spec.LinAlg

/-!
All operators a user can build by nesting the constructors. Besides a successful constructor call the
only conditions are those the classes document and do not check themselves:
the function given to `Matrix.wrap` multiplies by some matrix; all blocks of a `SymmSquareBlockMatrix`
have the same square shape; inner dimensions of a `Composition` agree; `SKI` gets `WT = W.T` and `W`
as wide as `K`. `NDArr.WF`/`Arr2.WF` say that arrays hold as many numbers as their shape says.
-/

namespace Verif

inductive Built : MatObj → Prop
  | wrap {n m mvm M} (A : Matrix (Fin n) (Fin m) ℝ)
      (hA : ∀ x : Fin m → ℝ, mvm (List.ofFn x) = List.ofFn (A.mulVec x)) (h : wrapNew n m mvm = .ok M) : Built M
  | dense {a M} (hw : a.WF) (h : numpyMatrixNew a = .ok M) : Built M
  | identity {n M} (h : identityNew n = .ok M) : Built M
  | diag {v M} (hw : v.WF) (h : diagNew v = .ok M) : Built M
  | toeplitz {top M} (hw : top.WF) (h : toeplitzNew top = .ok M) : Built M
  | bttb {top sizes M} (hw : top.WF) (h : bttbNew top sizes = .ok M) : Built M
  | blockDiag {blocks M} (hb : ∀ K ∈ blocks, Built K) (h : blockDiagNew blocks = .ok M) : Built M
  | symmBlock {blocks : List (List MatObj)} {m M} (hb : ∀ row ∈ blocks, ∀ K ∈ row, Built K)
      (hs : ∀ row ∈ blocks, ∀ K ∈ row, K.rows = m ∧ K.cols = m) (h : symmSquareBlockNew blocks = .ok M) : Built M
  | sum {Ks M} (hb : ∀ K ∈ Ks, Built K) (h : sumMatrixNew Ks = .ok M) : Built M
  | composition {mats M} (hb : ∀ K ∈ mats, Built K)
      (hs : mats.IsChain fun A B => A.cols = B.rows) (h : compositionNew mats = .ok M) : Built M
  | kronecker {A B M} (hA : Built A) (hB : Built B) (h : kroneckerNew A B = .ok M) : Built M
  | ski {K W M} (hK : Built K) (hr : K.rows = W.cols) (hc : K.cols = W.cols)
      (h : skiNew K W W.T = .ok M) : Built M

/-- The matrix an operator stands for, according to its `as_numpy()`. -/
def MatObj.dense (M : MatObj) : Matrix (Fin M.rows) (Fin M.cols) ℝ := fnMatrix M.rows M.cols M.asNumpy.get

end Verif
