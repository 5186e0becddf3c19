import Verif.Spec.Built
import Verif.Proofs.BTTB

namespace Verif

theorem vmk_ofFn {α : Type*} (n : ℕ) (f : ℕ → α) : vmk n f = List.ofFn fun i : Fin n => f i := by
  refine List.ext_getElem (by simp) fun i h1 h2 => by simp

theorem ofFn_getD (n : ℕ) (x : Fin n → ℝ) (j : Fin n) : (List.ofFn x).getD j 0 = x j := by simp

theorem ofFn_of_list {n : ℕ} {x : List ℝ} (hx : x.length = n) : x = List.ofFn fun j : Fin n => x.getD j 0 := by
  subst hx
  refine List.ext_getElem (by simp) fun i h1 h2 => by simp

theorem composable_iff : ∀ mats : List MatObj, (mats.IsChain fun A B => A.cols = B.rows) ↔ Composable mats
  | [] => by simp [Composable]
  | [_] => by simp [Composable]
  | A :: B :: r => by rw [List.isChain_cons_cons, composable_iff (B :: r)]; rfl

theorem Built.good {M : MatObj} (h : Built M) : Good M := by
  induction h with
  | @wrap n m mvm M A hA h =>
    refine (wrap_represents (A := fun i j => if hi : i < n then if hj : j < m then A ⟨i, hi⟩ ⟨j, hj⟩ else 0 else 0) h
      fun x hx => ?_).good
    rw [ofFn_of_list hx, hA, vmk_ofFn]
    congr 1; funext i
    simp only [Matrix.mulVec, dotProduct, i.2, dite_true]
    rw [Finset.sum_range]
    refine Finset.sum_congr rfl fun j _ => ?_
    simp [hx]
  | dense hw h => exact (numpyMatrix_represents hw h).2.good
  | identity h => exact (identity_represents h).2.2.good
  | diag hw h => exact (diag_represents hw h).2.2.good
  | toeplitz hw h => exact (toeplitz_represents hw h).2.2.good
  | bttb hw h => exact (bttb_represents hw h).2.2.good
  | blockDiag hb h ih => exact (blockDiag_represents ih h).good
  | symmBlock hb hs h ih => exact (symmSquareBlock_represents (fun r hr K hK => ⟨ih r hr K hK, hs r hr K hK⟩) h).2.2.2.good
  | sum hb h ih => exact (sumMatrix_represents h ih).good
  | composition hb hs h ih => exact (composition_represents h ((composable_iff _).1 hs) ih).good
  | kronecker hA hB h iA iB => exact (kronecker_represents iA iB h).2.2.good
  | ski hK hr hc h iK => exact (ski_represents iK hr hc rfl h).2.2.good

end Verif
