import Verif.Spec.Tolerance
import Verif.Props.SkiAccuracy
import Verif.Proofs.ApproxUnbiased

/-! Lemmas for C89: how far a small residual takes quadratic forms from their exact values. -/

namespace Verif

open Matrix

variable {n : ℕ}

theorem psd_cross {ι : Type*} [Fintype ι] {M : Matrix ι ι ℝ} (h : M.PosSemidef) (u v : ι → ℝ) : (u ⬝ᵥ M *ᵥ v) ^ 2 ≤ (u ⬝ᵥ M *ᵥ u) * (v ⬝ᵥ M *ᵥ v) := by
  have hsym : Mᵀ = M := by
    have := h.isHermitian
    rwa [Matrix.IsHermitian, Matrix.conjTranspose_eq_transpose_of_trivial] at this
  have hvu : v ⬝ᵥ M *ᵥ u = u ⬝ᵥ M *ᵥ v := by
    rw [Matrix.dotProduct_mulVec, ← Matrix.mulVec_transpose, hsym, dotProduct_comm]
  have key : ∀ t : ℝ, 0 ≤ (v ⬝ᵥ M *ᵥ v) * (t * t) + (2 * (u ⬝ᵥ M *ᵥ v)) * t + u ⬝ᵥ M *ᵥ u := fun t => by
    have := h.dotProduct_mulVec_nonneg (u + t • v)
    simp only [star_trivial, mulVec_add, mulVec_smul, add_dotProduct, dotProduct_add, smul_dotProduct, dotProduct_smul, smul_eq_mul, hvu] at this
    linarith
  have := discrim_le_zero key
  unfold discrim at this
  nlinarith

theorem dot_cross {ι : Type*} [Fintype ι] (u v : ι → ℝ) : (u ⬝ᵥ v) ^ 2 ≤ (u ⬝ᵥ u) * (v ⬝ᵥ v) := by
  classical
  have := psd_cross (Matrix.PosSemidef.one (n := ι) (R := ℝ)) u v
  simpa using this

theorem vecNorm_sq (v : Fin n → ℝ) : vecNorm v ^ 2 = v ⬝ᵥ v := by
  unfold vecNorm
  rw [Real.sq_sqrt (Finset.sum_nonneg fun i _ => sq_nonneg _)]
  exact Finset.sum_congr rfl fun i _ => by rw [sq]

theorem vecNorm_nonneg (v : Fin n → ℝ) : 0 ≤ vecNorm v := Real.sqrt_nonneg _

theorem abs_dot_le (u v : Fin n → ℝ) : |u ⬝ᵥ v| ≤ vecNorm u * vecNorm v := by
  refine abs_le_of_sq_le_sq ?_ (mul_nonneg (vecNorm_nonneg u) (vecNorm_nonneg v))
  rw [mul_pow, vecNorm_sq, vecNorm_sq]
  exact dot_cross u v

/-- `A` is symmetric and at least `ν` -/
structure AtLeast (A : Matrix (Fin n) (Fin n) ℝ) (ν : ℝ) : Prop where
  posDef : A.PosDef
  pos : 0 < ν
  coercive : ∀ v, ν * (v ⬝ᵥ v) ≤ v ⬝ᵥ A *ᵥ v

namespace AtLeast

variable {A : Matrix (Fin n) (Fin n) ℝ} {ν : ℝ}

theorem unit (h : AtLeast A ν) : IsUnit A.det := (Matrix.isUnit_iff_isUnit_det _).1 h.posDef.isUnit

theorem inv_le (h : AtLeast A ν) (r : Fin n → ℝ) : r ⬝ᵥ A⁻¹ *ᵥ r ≤ (r ⬝ᵥ r) / ν := by
  set v := A⁻¹ *ᵥ r with hv
  have hA : A *ᵥ v = r := by rw [hv, mulVec_mulVec, mul_nonsing_inv _ h.unit, one_mulVec]
  have h1 := h.coercive v
  rw [hA] at h1
  have h2 := dot_cross r v
  rw [dotProduct_comm v r] at h1
  rw [le_div_iff₀ h.pos]
  have hr : 0 ≤ r ⬝ᵥ r := by rw [← vecNorm_sq]; positivity
  by_contra hc
  push Not at hc
  have hpos : 0 < r ⬝ᵥ v := by
    by_contra hn
    have := mul_nonpos_of_nonpos_of_nonneg (not_lt.1 hn) h.pos.le
    linarith
  have hν := h.pos
  nlinarith [mul_le_mul_of_nonneg_left h1 hr, mul_lt_mul_of_pos_right hc hpos]

theorem inv_near (h : AtLeast A ν) (x b : Fin n → ℝ) : A⁻¹ *ᵥ b - x = A⁻¹ *ᵥ (b - A *ᵥ x) := by
  rw [mulVec_sub, mulVec_mulVec, nonsing_inv_mul _ h.unit, one_mulVec]

/-- a linear function of an approximate solution -/
theorem near (h : AtLeast A ν) {x b : Fin n → ℝ} {t : ℝ} (ht : vecNorm (b - A *ᵥ x) ≤ t) (c : Fin n → ℝ) :
    |c ⬝ᵥ x - c ⬝ᵥ A⁻¹ *ᵥ b| ≤ Real.sqrt (c ⬝ᵥ A⁻¹ *ᵥ c) * (t / Real.sqrt ν) := by
  have hi := h.posDef.inv.posSemidef
  have hc : 0 ≤ c ⬝ᵥ A⁻¹ *ᵥ c := by simpa using hi.dotProduct_mulVec_nonneg c
  have ht0 : 0 ≤ t := (vecNorm_nonneg _).trans ht
  rw [abs_sub_comm, ← dotProduct_sub, h.inv_near]
  refine abs_le_of_sq_le_sq ?_ (by positivity)
  rw [mul_pow, Real.sq_sqrt hc, div_pow, Real.sq_sqrt h.pos.le]
  refine (psd_cross hi _ _).trans (mul_le_mul_of_nonneg_left ?_ hc)
  refine (h.inv_le _).trans (div_le_div_of_nonneg_right ?_ h.pos.le)
  rw [← vecNorm_sq]
  exact pow_le_pow_left₀ (vecNorm_nonneg _) ht 2

theorem inv_norm (h : AtLeast A ν) (r : Fin n → ℝ) : vecNorm (A⁻¹ *ᵥ r) ≤ vecNorm r / ν := by
  set v := A⁻¹ *ᵥ r with hv
  have hA : A *ᵥ v = r := by rw [hv, mulVec_mulVec, mul_nonsing_inv _ h.unit, one_mulVec]
  have h1 := h.coercive v
  rw [hA, ← vecNorm_sq] at h1
  have h2 := (le_abs_self _).trans (abs_dot_le v r)
  rw [le_div_iff₀ h.pos]
  rcases (vecNorm_nonneg v).eq_or_lt with h0 | h0
  · rw [← h0, zero_mul]
    exact vecNorm_nonneg r
  · have : vecNorm v * (vecNorm v * ν) ≤ vecNorm v * vecNorm r := by nlinarith
    exact le_of_mul_le_mul_left this h0

/-- how far an approximate solution is from the exact one -/
theorem distance (h : AtLeast A ν) {x b : Fin n → ℝ} {t : ℝ} (ht : vecNorm (b - A *ᵥ x) ≤ t) : vecNorm (A⁻¹ *ᵥ b - x) ≤ t / ν := by
  rw [h.inv_near]
  exact (h.inv_norm _).trans (div_le_div_of_nonneg_right ht h.pos.le)

end AtLeast

theorem matNorm_nonneg (M : Matrix (Fin n) (Fin n) ℝ) : 0 ≤ matNorm M := Real.sqrt_nonneg _

theorem mulVec_norm (M : Matrix (Fin n) (Fin n) ℝ) (v : Fin n → ℝ) : vecNorm (M *ᵥ v) ≤ matNorm M * vecNorm v := by
  refine (le_abs_self _).trans (abs_le_of_sq_le_sq ?_ (mul_nonneg (matNorm_nonneg M) (vecNorm_nonneg v)))
  have hM : matNorm M ^ 2 = ∑ i, ∑ j, M i j ^ 2 := Real.sq_sqrt (Finset.sum_nonneg fun i _ => Finset.sum_nonneg fun j _ => sq_nonneg _)
  rw [mul_pow, vecNorm_sq v, hM, Finset.sum_mul]
  unfold vecNorm
  rw [Real.sq_sqrt (Finset.sum_nonneg fun i _ => sq_nonneg _)]
  refine Finset.sum_le_sum fun i _ => ?_
  have := dot_cross (fun j => M i j) v
  refine this.trans_eq ?_
  congr 1
  exact Finset.sum_congr rfl fun j _ => by rw [sq]

theorem bilin_le (u : Fin n → ℝ) (M : Matrix (Fin n) (Fin n) ℝ) (v : Fin n → ℝ) : |u ⬝ᵥ M *ᵥ v| ≤ vecNorm u * (matNorm M * vecNorm v) :=
  (abs_dot_le _ _).trans (mul_le_mul_of_nonneg_left (mulVec_norm M v) (vecNorm_nonneg u))

/-- a quadratic form of an approximate solution -/
theorem AtLeast.quadratic {A : Matrix (Fin n) (Fin n) ℝ} {ν : ℝ} (h : AtLeast A ν) {x b : Fin n → ℝ} {t : ℝ} (ht : vecNorm (b - A *ᵥ x) ≤ t) (M : Matrix (Fin n) (Fin n) ℝ) :
    |x ⬝ᵥ M *ᵥ x - (A⁻¹ *ᵥ b) ⬝ᵥ M *ᵥ (A⁻¹ *ᵥ b)| ≤ matNorm M * (t / ν * (2 * (vecNorm b / ν) + t / ν)) := by
  set a := A⁻¹ *ᵥ b with ha
  set δ := a - x with hδ
  have hx : x = a - δ := by rw [hδ]; abel
  have h1 : vecNorm δ ≤ t / ν := h.distance ht
  have h2 : vecNorm a ≤ vecNorm b / ν := h.inv_norm b
  have e : x ⬝ᵥ M *ᵥ x - a ⬝ᵥ M *ᵥ a = δ ⬝ᵥ M *ᵥ δ - δ ⬝ᵥ M *ᵥ a - a ⬝ᵥ M *ᵥ δ := by
    rw [hx, mulVec_sub, sub_dotProduct, dotProduct_sub, dotProduct_sub]
    ring
  have b1 := bilin_le δ M δ
  have b2 := bilin_le δ M a
  have b3 := bilin_le a M δ
  have t0 : 0 ≤ t / ν := (vecNorm_nonneg _).trans h1
  have m0 := matNorm_nonneg M
  have n1 := vecNorm_nonneg δ
  have n2 := vecNorm_nonneg a
  have c1 : vecNorm δ * (matNorm M * vecNorm δ) ≤ matNorm M * (t / ν * (t / ν)) := by
    have := mul_le_mul h1 h1 n1 t0
    nlinarith
  have c2 : vecNorm δ * (matNorm M * vecNorm a) ≤ matNorm M * (t / ν * (vecNorm b / ν)) := by
    have := mul_le_mul h1 h2 n2 t0
    nlinarith
  rw [e]
  refine (abs_sub _ _).trans ?_
  have := abs_sub (δ ⬝ᵥ M *ᵥ δ) (δ ⬝ᵥ M *ᵥ a)
  nlinarith

/-- an entry of the estimate of a trace from an approximate solution -/
theorem AtLeast.probe {A : Matrix (Fin n) (Fin n) ℝ} {ν : ℝ} (h : AtLeast A ν) {x b : Fin n → ℝ} {t : ℝ} (ht : vecNorm (b - A *ᵥ x) ≤ t) (M : Matrix (Fin n) (Fin n) ℝ) (u : Fin n → ℝ) :
    |u ⬝ᵥ M *ᵥ x - u ⬝ᵥ M *ᵥ (A⁻¹ *ᵥ b)| ≤ matNorm M * (t / ν * vecNorm u) := by
  rw [abs_sub_comm, ← dotProduct_sub, ← mulVec_sub]
  have := bilin_le u M (A⁻¹ *ᵥ b - x)
  have h1 := h.distance ht
  have := mul_le_mul_of_nonneg_left h1 (mul_nonneg (matNorm_nonneg M) (vecNorm_nonneg u))
  nlinarith

/-! ### what a solve without a message means -/

theorem residual_le {sv : Solvers} (hs : sv.Fit) {K : MatObj} {n : ℕ} {A : ℕ → ℕ → ℝ} (hK : SquareOp K n A) {b x : List ℝ} (hb : b.length = n) {tol : ℝ} {lg : Bool}
    (hc : Converged sv K b tol) (h : iterativeSolve sv K b false true tol = .ok (.plain x, lg)) : vecNorm (toVec n b - fnMatrix n n A *ᵥ toVec n x) ≤ tol := by
  obtain ⟨x', h'⟩ := hc
  rw [h] at h'
  cases h'
  obtain ⟨x', c, e, lg, -, h2, -, h4, -⟩ := C51_solve sv hs K n A hK b hb true tol
  rw [h] at h2
  cases h2
  exact h4 rfl

theorem LLGP.OK.atLeast {m : LLGP} {P : ℕ} (h : m.OK P) (hs : m.fk.Sound) (hn : ∀ ad ∈ m.fk.activeDims.map Prod.fst, ad.Nodup) {ν : ℝ} (hν : m.fk.NoiseAtLeast ν) :
    AtLeast (m.fk.skiMat m.axesOf m.fk.extraOf m.gp.Xs) ν where
  posDef := h.ski_posDef hs hn
  pos := hν.1
  coercive := skiMat_coercive h.ready h.groups hs h.data.inputs.len (fun ad had => ⟨by
    obtain ⟨g, hg, rfl⟩ := List.mem_map.1 had
    obtain ⟨gg, d1, d2, d3, d4⟩ := h.mem_grids hg
    rw [d4, d3.axes], hn ad had⟩) (extraOf_nonneg m.fk) hν.2

/-! ### the stochastic derivative -/

/-- the row of signs of probe `k` -/
noncomputable def signRow {N n : ℕ} (z : Fin N → Fin n → Bool) (k : ℕ) : List ℝ := vmk n fun i => (if tableBits z k i then 1 else 0) * 2 - 1

theorem signRow_length {N n : ℕ} (z : Fin N → Fin n → Bool) (k : ℕ) : (signRow z k).length = n := vmk_length _ _

theorem signRow_sign {N n : ℕ} (z : Fin N → Fin n → Bool) (k : ℕ) : SignVec n (signRow z k) :=
  ⟨signRow_length z k, fun i hi => by
    unfold signRow
    rw [vmk_getD_lt hi]
    cases tableBits z k i <;> norm_num⟩

theorem signRow_vec {N n : ℕ} (z : Fin N → Fin n → Bool) (k : Fin N) : toVec n (signRow z k) = fun i => sgnBit (z k i) := by
  funext i
  show (signRow z k).getD i 0 = _
  unfold signRow
  rw [vmk_getD_lt i.2]
  unfold tableBits sgnBit
  rw [dif_pos ⟨k.2, i.2⟩]
  cases z k i <;> norm_num

/-- the estimate of the derivative along `B` when `sol` solves the linear systems -/
noncomputable def estValue (n N : ℕ) (sol : List ℝ → List ℝ) (y : List ℝ) (z : Fin N → Fin n → Bool) (B : ℕ → ℕ → ℝ) : ℝ :=
  1 / 2 * (toVec n (sol y) ⬝ᵥ fnMatrix n n B *ᵥ toVec n (sol y) - (∑ k : Fin N, toVec n (sol (signRow z k)) ⬝ᵥ fnMatrix n n B *ᵥ fun i => sgnBit (z k i)) / N)

theorem estValue_of {n : ℕ} {s : DerivService} (hn : 0 < s.nIt) {dK : MatObj} {B : ℕ → ℕ → ℝ} (hB : SquareOp dK n B) {sol : List ℝ → List ℝ} (hsol : ∀ b : List ℝ, b.length = n → (sol b).length = n)
    {y : List ℝ} (hy : y.length = n) (z : Fin s.nIt → Fin n → Bool) :
    StochDeriv.derivative ⟨sol y, signRows s.nIt n (tableBits z), (signRows s.nIt n (tableBits z)).map sol, s.nIt⟩ dK = .ok (estValue n s.nIt sol y z B) := by
  have y1 := hsol y hy
  unfold StochDeriv.derivative
  rw [if_pos ⟨by rw [hB.rows]; exact y1.symm, by rw [hB.cols]; exact y1.symm⟩]
  unfold StochDeriv.dLogdetK
  simp only [if_neg hn.ne', ok_bind]
  have e1 : StochDeriv.dNormalQuadratic ⟨sol y, signRows s.nIt n (tableBits z), (signRows s.nIt n (tableBits z)).map sol, s.nIt⟩ dK =
      toVec n (sol y) ⬝ᵥ fnMatrix n n B *ᵥ toVec n (sol y) := by
    unfold StochDeriv.dNormalQuadratic
    rw [vdot_toVec n _ _ y1, toVec_matvec hB _ y1]
  have e2 : ((signRows s.nIt n (tableBits z)).zip ((signRows s.nIt n (tableBits z)).map sol)).foldl
      (fun trace rr => trace + vdot rr.2 (dK.matvec rr.1)) 0 =
      ∑ k : Fin s.nIt, toVec n (sol (signRow z k)) ⬝ᵥ fnMatrix n n B *ᵥ fun i => sgnBit (z k i) := by
    rw [foldl_add_sum (fun rr : List ℝ × List ℝ => vdot rr.2 (dK.matvec rr.1)), zero_add, List.zip_map_right, List.map_map]
    rw [show signRows s.nIt n (tableBits z) = (List.range s.nIt).map (signRow z) from rfl, List.zip_map', List.map_map, list_sum_range, Finset.sum_range]
    refine Finset.sum_congr rfl fun k _ => ?_
    simp only [Function.comp, Prod.map]
    show vdot (sol (signRow z k)) (dK.matvec (signRow z k)) = _
    rw [vdot_toVec n _ _ (hsol _ (signRow_length z k)), toVec_matvec hB _ (signRow_length z k), signRow_vec]
  rw [e1, e2]
  unfold estValue
  norm_num [pure_ok]

theorem sign_norm {N n : ℕ} (z : Fin N → Fin n → Bool) (k : Fin N) : vecNorm (fun i => sgnBit (z k i)) = Real.sqrt n := by
  unfold vecNorm
  congr 1
  rw [Finset.sum_congr rfl fun i _ => show sgnBit (z k i) ^ 2 = 1 by unfold sgnBit; split_ifs <;> norm_num]
  simp

/-- how far the estimate is from the one with exact solves -/
theorem estValue_near {n N : ℕ} (hN : 0 < N) {A : Matrix (Fin n) (Fin n) ℝ} {ν : ℝ} (h : AtLeast A ν) {sol : List ℝ → List ℝ} {y : List ℝ} {t : ℝ}
    (hy : vecNorm (toVec n y - A *ᵥ toVec n (sol y)) ≤ t) (z : Fin N → Fin n → Bool)
    (hz : ∀ k : Fin N, vecNorm (toVec n (signRow z k) - A *ᵥ toVec n (sol (signRow z k))) ≤ t) (B : ℕ → ℕ → ℝ) :
    |estValue n N sol y z B - probeValue n N A (toVec n y) z B| ≤
      1 / 2 * matNorm (fnMatrix n n B) * (t / ν * (2 * (vecNorm (toVec n y) / ν) + t / ν + Real.sqrt n)) := by
  have h1 := h.quadratic hy (fnMatrix n n B)
  have hs : A⁻¹ᵀ = A⁻¹ := by
    have := h.posDef.isHermitian.inv
    rwa [Matrix.IsHermitian, Matrix.conjTranspose_eq_transpose_of_trivial] at this
  have h2 : ∀ k : Fin N, |toVec n (sol (signRow z k)) ⬝ᵥ fnMatrix n n B *ᵥ (fun i => sgnBit (z k i)) -
      (fun i => sgnBit (z k i)) ⬝ᵥ (A⁻¹ᵀ * fnMatrix n n B) *ᵥ (fun i => sgnBit (z k i))| ≤ matNorm (fnMatrix n n B) * (t / ν * Real.sqrt n) := by
    intro k
    set u := fun i => sgnBit (z k i) with hu
    have e : u ⬝ᵥ (A⁻¹ᵀ * fnMatrix n n B) *ᵥ u = (A⁻¹ *ᵥ u) ⬝ᵥ fnMatrix n n B *ᵥ u := by
      rw [← Matrix.mulVec_mulVec, Matrix.dotProduct_mulVec u, Matrix.vecMul_transpose]
    have hk := hz k
    rw [signRow_vec] at hk
    have hd := h.distance hk
    rw [e, abs_sub_comm, ← sub_dotProduct]
    refine (bilin_le _ _ _).trans ?_
    rw [sign_norm]
    have := mul_le_mul_of_nonneg_right hd (mul_nonneg (matNorm_nonneg (fnMatrix n n B)) (Real.sqrt_nonneg n))
    linarith
  have h3 : |(∑ k : Fin N, toVec n (sol (signRow z k)) ⬝ᵥ fnMatrix n n B *ᵥ (fun i => sgnBit (z k i))) / N -
      (∑ k : Fin N, (fun i => sgnBit (z k i)) ⬝ᵥ (A⁻¹ᵀ * fnMatrix n n B) *ᵥ (fun i => sgnBit (z k i))) / N| ≤ matNorm (fnMatrix n n B) * (t / ν * Real.sqrt n) := by
    have hNp : (0 : ℝ) < N := by exact_mod_cast hN
    rw [← sub_div, ← Finset.sum_sub_distrib, abs_div, abs_of_pos hNp, div_le_iff₀ hNp]
    refine (Finset.abs_sum_le_sum_abs _ _).trans ((Finset.sum_le_sum fun k _ => h2 k).trans_eq ?_)
    rw [Finset.sum_const, Finset.card_univ, Fintype.card_fin, nsmul_eq_mul, mul_comm]
  unfold estValue probeValue
  rw [← mul_sub, abs_mul, abs_of_pos (show (0 : ℝ) < 1 / 2 by norm_num), mul_assoc]
  refine mul_le_mul_of_nonneg_left ?_ (by norm_num)
  rw [abs_le] at h1 h3 ⊢
  constructor <;> linarith [h1.1, h1.2, h3.1, h3.2]

theorem derivative_estimate {m : LLGP} {P : ℕ} (h : m.OK P) (hN : 0 < m.nIt) {sv : Solvers} (hs : sv.Fit) {e : Env} (he : e.Works) {K : MatObj} {A : ℕ → ℕ → ℝ} (hK : SquareOp K m.n A)
    {sol : List ℝ → List ℝ} (hsol : SolvesTo sv K m.n m.tol sol) (z : Fin m.nIt → Fin m.n → Bool) (hz : e.z = tableBits z) {kd : List MatObj × StochDeriv × Option Metrics}
    (ha : approxFirst sv e m K = .ok kd) (dK : MatObj) (B : ℕ → ℕ → ℝ) (hB : SquareOp dK m.n B) :
    kd.2.1.derivative dK = .ok (estValue m.n m.nIt sol m.y z B) := by
  unfold approxFirst at ha
  split_ifs at ha
  simp only [bind_ok, pure_ok] at ha
  obtain ⟨vals, -, ks, -, d, h1, h2⟩ := ha
  cases h2
  obtain ⟨sol', hsol', m', e1, -⟩ := generate_contents sv hs (m.service e) m.metrics (tableBits z) hK (y_length h) (he _)
  rw [hz] at h1
  have := e1.symm.trans h1
  cases this
  have hss : ∀ b : List ℝ, b.length = m.n → sol' b = sol b := fun b hb => by
    obtain ⟨l1, e1⟩ := hsol' b hb
    obtain ⟨-, l2, e2⟩ := hsol b hb
    rw [show (m.service e).tol = m.tol from rfl, e2] at e1
    simp only [Except.ok.injEq, Prod.mk.injEq, SolveRet.plain.injEq] at e1
    exact e1.1.symm
  have := estValue_of (s := m.service e) hN hB (sol := sol') (fun b hb => by rw [hss b hb]; exact (hsol b hb).1) (y_length h) z
  refine this.trans ?_
  unfold estValue
  rw [hss _ (y_length h)]
  show Except.ok (1 / 2 * (_ - (∑ k : Fin m.nIt, _) / (m.nIt : ℝ))) = _
  congr 4
  refine Finset.sum_congr rfl fun k _ => ?_
  exact congrArg (fun v => toVec m.n v ⬝ᵥ fnMatrix m.n m.n B *ᵥ fun i => sgnBit (z k i)) (hss _ (signRow_length z k))

end Verif
