import Verif.Model.RawProduct
import Verif.Spec.Built

/-! All operators a user can build, with products for arguments of any size, and what it means to refuse an argument. -/

namespace Verif

/-- as `Built`, with the same conditions -/
inductive RawBuilt : RawOp → Prop
  | wrap {n m mvm r} (A : Matrix (Fin n) (Fin m) ℝ) (hA : ∀ x : Fin m → ℝ, mvm (List.ofFn x) = .ok (List.ofFn (A.mulVec x))) (h : rawWrap n m mvm = .ok r) : RawBuilt r
  | dense {a r} (hw : a.WF) (h : rawDense a = .ok r) : RawBuilt r
  | identity {n r} (h : rawIdentity n = .ok r) : RawBuilt r
  | diag {v r} (hw : v.WF) (h : rawDiag v = .ok r) : RawBuilt r
  | toeplitz {top r} (hw : top.WF) (h : rawToeplitz top = .ok r) : RawBuilt r
  | bttb {top sizes r} (hw : top.WF) (h : rawBttb top sizes = .ok r) : RawBuilt r
  | blockDiag {blocks r} (hb : ∀ K ∈ blocks, RawBuilt K) (h : rawBlockDiag blocks = .ok r) : RawBuilt r
  | symmBlock {blocks : List (List RawOp)} {m r} (hb : ∀ row ∈ blocks, ∀ K ∈ row, RawBuilt K)
      (hs : ∀ row ∈ blocks, ∀ K ∈ row, K.obj.rows = m ∧ K.obj.cols = m) (h : rawSymmBlock blocks = .ok r) : RawBuilt r
  | sum {Ks r} (hb : ∀ K ∈ Ks, RawBuilt K) (h : rawSum Ks = .ok r) : RawBuilt r
  | composition {mats r} (hb : ∀ K ∈ mats, RawBuilt K) (hs : mats.IsChain fun A B => A.obj.cols = B.obj.rows) (h : rawComposition mats = .ok r) : RawBuilt r
  | kronecker {A B r} (hA : RawBuilt A) (hB : RawBuilt B) (h : rawKron A B = .ok r) : RawBuilt r
  | ski {K W r} (hK : RawBuilt K) (hr : K.obj.rows = W.cols) (hc : K.obj.cols = W.cols) (h : rawSki K W W.T = .ok r) : RawBuilt r

/-- an exception is raised -/
def Raises {α : Type} (x : Except PyErr α) : Prop := ∃ e, x = .error e

/-- products with vectors of another length, and with matrices (of at least one column) of another number of rows, are refused -/
structure RawOp.Strict (r : RawOp) : Prop where
  vec : ∀ x : List ℝ, x.length ≠ r.obj.cols → Raises (r.vec x)
  mat : ∀ X : Arr2 ℝ, X.rows ≠ r.obj.cols → 0 < X.cols → Raises (r.mat X)

end Verif
