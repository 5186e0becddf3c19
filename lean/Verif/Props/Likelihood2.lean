import Verif.Props.LikReady
import Verif.Proofs.MatDeriv

/-! C37: the exact gradients. -/

namespace Verif

open Matrix

/-! ### the derivative of the log density -/

theorem hasDerivAt_gauss {n : ℕ} {K : ℝ → ℕ → ℕ → ℝ} {K' : ℕ → ℕ → ℝ} {t : ℝ} (y : List ℝ)
    (hK : ∀ r < n, ∀ s < n, HasDerivAt (fun u => K u r s) (K' r s) t) (hp : (fnMatrix n n (K t)).PosDef) :
    HasDerivAt (fun u => gaussLogDensity n (K u) y)
      ((1 / 2) * (((fnMatrix n n (K t))⁻¹ *ᵥ toVec n y) ⬝ᵥ (fnMatrix n n K') *ᵥ ((fnMatrix n n (K t))⁻¹ *ᵥ toVec n y) -
        ∑ r, ∑ s, fnMatrix n n K' r s * (fnMatrix n n (K t))⁻¹ r s)) t := by
  have h : ∀ i j : Fin n, HasDerivAt (fun u => fnMatrix n n (K u) i j) (fnMatrix n n K' i j) t := fun i j => hK i i.2 j j.2
  have hd : (fnMatrix n n (K t)).det ≠ 0 := hp.det_pos.ne'
  have h1 := hasDerivAt_quadratic (K := fun u => fnMatrix n n (K u)) h hd (toVec n y)
  have h2 := hasDerivAt_logdet (K := fun u => fnMatrix n n (K u)) h hd
  unfold gaussLogDensity
  refine (((h1.fun_add h2).add_const _).const_mul (-(1 / 2))).congr_deriv ?_
  have hs : (fnMatrix n n (K t))⁻¹ᵀ = (fnMatrix n n (K t))⁻¹ := by
    have : (fnMatrix n n (K t))ᵀ = fnMatrix n n (K t) := by
      have := hp.isHermitian
      rwa [Matrix.IsHermitian, Matrix.conjTranspose_eq_transpose_of_trivial] at this
    rw [Matrix.transpose_nonsing_inv, this]
  set M := (fnMatrix n n (K t))⁻¹ with hM
  have e1 : toVec n y ⬝ᵥ (M * fnMatrix n n K' * M) *ᵥ toVec n y = (M *ᵥ toVec n y) ⬝ᵥ (fnMatrix n n K') *ᵥ (M *ᵥ toVec n y) := by
    rw [← Matrix.mulVec_mulVec, ← Matrix.mulVec_mulVec, Matrix.dotProduct_mulVec, ← Matrix.mulVec_transpose, hs]
  have e2 : (M * fnMatrix n n K').trace = ∑ r, ∑ s, fnMatrix n n K' r s * M r s := by
    rw [Matrix.trace]
    simp only [Matrix.diag_apply, Matrix.mul_apply]
    rw [Finset.sum_comm]
    refine Finset.sum_congr rfl fun r _ => Finset.sum_congr rfl fun s _ => ?_
    have : M s r = M r s := by
      conv_lhs => rw [← hs]
      rfl
    rw [this, mul_comm]
  rw [e1, e2]
  ring

theorem value_eq {fk : FK} {Xs : List (Arr2 ℝ)} {Ys : List (List ℝ)} {l : ExactLMC} (hc : ExactContents fk Xs Ys l) (f : ℕ → ℕ → ℝ) :
    l.deriv.derivative (Arr2.of (Xs.map Arr2.rows).sum (Xs.map Arr2.rows).sum f) =
      .ok ((1 / 2) * ((((fk.covMat Xs)⁻¹ *ᵥ toVec _ Ys.flatten) ⬝ᵥ (fnMatrix (Xs.map Arr2.rows).sum (Xs.map Arr2.rows).sum f) *ᵥ
        ((fk.covMat Xs)⁻¹ *ᵥ toVec _ Ys.flatten)) -
        ∑ r, ∑ s, fnMatrix (Xs.map Arr2.rows).sum (Xs.map Arr2.rows).sum f r s * (fk.covMat Xs)⁻¹ r s)) := by
  set n := (Xs.map Arr2.rows).sum with hn
  unfold ExactDerivObj.derivative
  have hl : l.deriv.alpha.length = n := by rw [hc.alpha]; simp [hn]
  rw [if_pos ⟨by rw [hl]; rfl, by rw [hl]; rfl⟩]
  congr 1
  have ha : ∀ i : Fin n, l.deriv.alpha.getD i 0 = ((fk.covMat Xs)⁻¹ *ᵥ toVec n Ys.flatten) i := fun i => by
    rw [hc.alpha, vmk_getD_lt i.2, dif_pos i.2]
  have hk : ∀ r s : Fin n, l.deriv.Kinv.get r s = (fk.covMat Xs)⁻¹ r s := fun r s => by
    rw [hc.Kinv, Arr2.of_get r.2 s.2, dif_pos ⟨r.2, s.2⟩]
  have e1 : l.deriv.dNormalQuadratic (Arr2.of n n f) = ((fk.covMat Xs)⁻¹ *ᵥ toVec n Ys.flatten) ⬝ᵥ (fnMatrix n n f) *ᵥ
        ((fk.covMat Xs)⁻¹ *ᵥ toVec n Ys.flatten) := by
    unfold ExactDerivObj.dNormalQuadratic vdot
    rw [hl, Finset.sum_range]
    refine Finset.sum_congr rfl fun i _ => ?_
    rw [ha i]
    congr 1
    unfold Arr2.dotv
    rw [vmk_getD_lt (by exact i.2)]
    show ∑ j ∈ Finset.range n, _ = _
    rw [Finset.sum_range]
    refine Finset.sum_congr rfl fun j _ => ?_
    rw [Arr2.of_get i.2 j.2, ha j]
    rfl
  have e2 : l.deriv.dLogdetK (Arr2.of n n f) = ∑ r, ∑ s, fnMatrix n n f r s * (fk.covMat Xs)⁻¹ r s := by
    unfold ExactDerivObj.dLogdetK Arr2.total
    show ∑ i ∈ Finset.range n, ∑ j ∈ Finset.range n, _ = _
    rw [Finset.sum_range]
    refine Finset.sum_congr rfl fun i _ => ?_
    rw [Finset.sum_range]
    refine Finset.sum_congr rfl fun j _ => ?_
    unfold Arr2.hmul
    rw [Arr2.of_get (by exact i.2) (by exact j.2), Arr2.of_get i.2 j.2, hk]
    rfl
  rw [e1, e2, show (0.5 : ℝ) = 1 / 2 by norm_num]

/-- the key step: the derivative the code computes from `dK` is the derivative of the log likelihood along any path of kernels whose
covariance has derivative `dK` -/
theorem derivative_correct {fk : FK} {Xs : List (Arr2 ℝ)} {Ys : List (List ℝ)} {l : ExactLMC} (hc : ExactContents fk Xs Ys l)
    (g : ℝ → FK) (t : ℝ) (f : ℕ → ℕ → ℝ)
    (h0 : ∀ r < (Xs.map Arr2.rows).sum, ∀ s < (Xs.map Arr2.rows).sum, (g t).fullCov Xs r s = fk.fullCov Xs r s)
    (h : ∀ r < (Xs.map Arr2.rows).sum, ∀ s < (Xs.map Arr2.rows).sum, HasDerivAt (fun u => (g u).fullCov Xs r s) (f r s) t) :
    ∃ v, l.deriv.derivative (Arr2.of (Xs.map Arr2.rows).sum (Xs.map Arr2.rows).sum f) = .ok v ∧
      HasDerivAt (fun u => (g u).logLik Xs Ys) v t := by
  refine ⟨_, value_eq hc f, ?_⟩
  have e : fnMatrix (Xs.map Arr2.rows).sum (Xs.map Arr2.rows).sum ((g t).fullCov Xs) = fk.covMat Xs := by
    ext r s
    exact h0 r r.2 s s.2
  obtain ⟨U, u1, u2, u3, -⟩ := hc.factor
  have hp : (fk.covMat Xs).PosDef := cholesky_posDef u1 u2 u3
  have := hasDerivAt_gauss (n := (Xs.map Arr2.rows).sum) (K := fun u => (g u).fullCov Xs) (K' := f) (t := t) Ys.flatten h (by rw [e]; exact hp)
  rw [e] at this
  exact this

theorem contents_of_ok {fk : FK} {P : ℕ} (h : fk.Ready P) {Xs : List (Arr2 ℝ)} {Ys : List (List ℝ)} (hd : DataOK fk.D P Xs Ys) {l : ExactLMC}
    (hl : exactLMCNew fk Xs Ys = .ok l) : ExactContents fk Xs Ys l := by
  obtain ⟨hp, hn⟩ := exactLMC_contents h hd
  by_cases hpd : (fk.covMat Xs).PosDef
  · obtain ⟨l', h1, h2⟩ := hp hpd
    rw [hl] at h1; cases h1
    exact h2
  · rw [hn hpd] at hl; cases hl

/-! ### derivatives of the covariance -/

theorem hasDerivAt_fullCov {fk : FK} (Xs : List (Arr2 ℝ)) (hX : Xs.length = fk.D) (g : ℝ → FK) (t : ℝ)
    (B' : ℕ → ℕ → ℕ → ℝ) (k' : ℕ → ℝ → ℝ) (e' : ℕ → ℝ)
    (hQ : ∀ u, (g u).Q = fk.Q) (hd : ∀ u, ∀ q < fk.Q, (g u).kdims q = fk.kdims q)
    (hB : ∀ q < fk.Q, ∀ a < fk.D, ∀ b < fk.D, (g t).B q a b = fk.B q a b ∧ HasDerivAt (fun u => (g u).B q a b) (B' q a b) t)
    (hk : ∀ q < fk.Q, ∀ x, ((g t).kernels.getD q (.identity none)).doc x = (fk.kernels.getD q (.identity none)).doc x ∧
      HasDerivAt (fun u => ((g u).kernels.getD q (.identity none)).doc x) (k' q x) t)
    (he : ∀ a < fk.D, (g t).noise.getD a 0 = fk.noise.getD a 0 ∧ HasDerivAt (fun u => (g u).noise.getD a 0) (e' a) t)
    (r s : ℕ) (hr : r < (Xs.map Arr2.rows).sum) (hs : s < (Xs.map Arr2.rows).sum) :
    (g t).fullCov Xs r s = fk.fullCov Xs r s ∧
    HasDerivAt (fun u => (g u).fullCov Xs r s)
      ((∑ q ∈ Finset.range fk.Q,
        (B' q (ownerOf (Xs.map Arr2.rows) r) (ownerOf (Xs.map Arr2.rows) s) * (fk.kernels.getD q (.identity none)).doc
            (distOn (fk.kdims q) (pointOf Xs (ownerOf (Xs.map Arr2.rows) r) (innerIdx (Xs.map Arr2.rows) r))
              (pointOf Xs (ownerOf (Xs.map Arr2.rows) s) (innerIdx (Xs.map Arr2.rows) s))) +
          fk.B q (ownerOf (Xs.map Arr2.rows) r) (ownerOf (Xs.map Arr2.rows) s) * k' q
            (distOn (fk.kdims q) (pointOf Xs (ownerOf (Xs.map Arr2.rows) r) (innerIdx (Xs.map Arr2.rows) r))
              (pointOf Xs (ownerOf (Xs.map Arr2.rows) s) (innerIdx (Xs.map Arr2.rows) s)))))
        + if r = s then e' (ownerOf (Xs.map Arr2.rows) r) else 0) t := by
  have hl : (Xs.map Arr2.rows).length = fk.D := by rw [List.length_map, hX]
  have o1 : ownerOf (Xs.map Arr2.rows) r < fk.D := hl ▸ ownerOf_lt _ r hr
  have o2 : ownerOf (Xs.map Arr2.rows) s < fk.D := hl ▸ ownerOf_lt _ s hs
  unfold FK.fullCov FK.cov
  simp only [hQ]
  constructor
  · congr 1
    · refine Finset.sum_congr rfl fun q hq => ?_
      have hq := Finset.mem_range.1 hq
      rw [(hB q hq _ o1 _ o2).1, hd t q hq, (hk q hq _).1]
    · rw [(he _ o1).1]
  · refine HasDerivAt.fun_add ?_ ?_
    · have : (fun u => ∑ q ∈ Finset.range fk.Q, (g u).B q (ownerOf (Xs.map Arr2.rows) r) (ownerOf (Xs.map Arr2.rows) s) *
          ((g u).kernels.getD q (.identity none)).doc (distOn ((g u).kdims q) (pointOf Xs (ownerOf (Xs.map Arr2.rows) r) (innerIdx (Xs.map Arr2.rows) r))
              (pointOf Xs (ownerOf (Xs.map Arr2.rows) s) (innerIdx (Xs.map Arr2.rows) s)))) =
          fun u => ∑ q ∈ Finset.range fk.Q, (g u).B q (ownerOf (Xs.map Arr2.rows) r) (ownerOf (Xs.map Arr2.rows) s) *
          ((g u).kernels.getD q (.identity none)).doc (distOn (fk.kdims q) (pointOf Xs (ownerOf (Xs.map Arr2.rows) r) (innerIdx (Xs.map Arr2.rows) r))
              (pointOf Xs (ownerOf (Xs.map Arr2.rows) s) (innerIdx (Xs.map Arr2.rows) s))) := by
        funext u
        exact Finset.sum_congr rfl fun q hq => by rw [hd u q (Finset.mem_range.1 hq)]
      rw [this]
      refine HasDerivAt.fun_sum fun q hq => ?_
      have hq := Finset.mem_range.1 hq
      have := (hB q hq _ o1 _ o2).2.fun_mul (hk q hq (distOn (fk.kdims q) (pointOf Xs (ownerOf (Xs.map Arr2.rows) r) (innerIdx (Xs.map Arr2.rows) r))
              (pointOf Xs (ownerOf (Xs.map Arr2.rows) s) (innerIdx (Xs.map Arr2.rows) s)))).2
      rw [(hB q hq _ o1 _ o2).1, (hk q hq _).1] at this
      exact this
    · by_cases e : r = s
      · simp only [if_pos e]; exact (he _ o1).2
      · simp only [if_neg e]; exact hasDerivAt_const _ _

/-- the value of kernel `q` for observations `r` and `s` -/
noncomputable def FK.kAt (fk : FK) (Xs : List (Arr2 ℝ)) (f : ℝ → ℝ) (q r s : ℕ) : ℝ :=
  f (distOn (fk.kdims q) (pointOf Xs (ownerOf (Xs.map Arr2.rows) r) (innerIdx (Xs.map Arr2.rows) r))
              (pointOf Xs (ownerOf (Xs.map Arr2.rows) s) (innerIdx (Xs.map Arr2.rows) s)))

theorem mapExcept_range {β : Type} {n : ℕ} {f : ℕ → Except PyErr β} {R : ℕ → β → Prop} (d : β) (h : ∀ i < n, ∃ y, f i = .ok y ∧ R i y) :
    ∃ ys, mapExcept f (List.range n) = .ok ys ∧ ys.length = n ∧ ∀ i < n, R i (ys.getD i d) := by
  obtain ⟨ys, h1, h2⟩ := mapExcept_forall2 (f := f) (R := R) (l := List.range n) fun x hx => h x (List.mem_range.1 hx)
  have hl := h2.length_eq
  rw [List.length_range] at hl
  refine ⟨ys, h1, hl.symm, fun i hi => ?_⟩
  have := (List.forall₂_iff_get.1 h2).2 i (by simpa using hi) (by omega)
  rw [List.getD_eq_getElem _ _ (by omega)]
  simpa using this

section
variable {fk : FK} {P : ℕ} {Xs : List (Arr2 ℝ)} {Ys : List (List ℝ)} {l : ExactLMC}

theorem kernMat_at (h : fk.Ready P) (hX : InputsOK fk.D P Xs) (f : ℝ → ℝ) {q : ℕ} (hq : q < fk.Q) :
    kernMat (npVstack Xs) (npVstack Xs) f (fk.kdims q) = Arr2.of (Xs.map Arr2.rows).sum (Xs.map Arr2.rows).sum (fk.kAt Xs f q) := by
  obtain ⟨x1, x2, x3⟩ := vstackX_ok hX h.wf.Dpos
  unfold kernMat
  rw [x2]
  refine Arr2.of_congr fun r hr s hs => ?_
  unfold FK.kAt
  rw [distOn_congr (fun c hc => vstackX_get hX h.wf.Dpos hr (kdims_bound h hq c hc)) (fun c hc => vstackX_get hX h.wf.Dpos hs (kdims_bound h hq c hc))]

theorem scale_at (h : fk.Ready P) (hX : InputsOK fk.D P Xs) (A : Arr2 ℝ) (f : ℝ → ℝ) {q : ℕ} (hq : q < fk.Q) :
    coregScale A (kernMat (npVstack Xs) (npVstack Xs) f (fk.kdims q)) (Xs.map Arr2.rows) (Xs.map Arr2.rows) fk.D =
      .ok (Arr2.of (Xs.map Arr2.rows).sum (Xs.map Arr2.rows).sum fun r s =>
        A.get (ownerOf (Xs.map Arr2.rows) r) (ownerOf (Xs.map Arr2.rows) s) * fk.kAt Xs f q r s) := by
  have hl : (Xs.map Arr2.rows).length = fk.D := by rw [List.length_map, hX.len]
  rw [kernMat_at h hX f hq, coregScale_ok (K := Arr2.of (Xs.map Arr2.rows).sum (Xs.map Arr2.rows).sum (fk.kAt Xs f q)) (Arr2.of_wf _ _ _) hl hl h.wf.Dpos rfl rfl]
  congr 1
  refine Arr2.of_congr fun r hr s hs => ?_
  rw [Arr2.of_get (by exact hr) (by exact hs), mul_comm]

theorem dKdA_ok (h : fk.Ready P) (hX : InputsOK fk.D P Xs) (hc : ExactContents fk Xs Ys l) (A : Arr2 ℝ) {q : ℕ} (hq : q < fk.Q) :
    l.ops.dKdA A q = .ok (Arr2.of (Xs.map Arr2.rows).sum (Xs.map Arr2.rows).sum fun r s =>
        A.get (ownerOf (Xs.map Arr2.rows) r) (ownerOf (Xs.map Arr2.rows) s) * fk.kAt Xs (fk.kernels.getD q (.identity none)).doc q r s) := by
  unfold ExactLMC.ops
  simp only
  rw [hc.kern, hc.lens, hc.kernels]
  have : (fk.kernels.map fun k => kernMat (npVstack Xs) (npVstack Xs) k.doc (k.activeDims.getD [])).getD q ⟨0, 0, []⟩ =
      kernMat (npVstack Xs) (npVstack Xs) (fk.kernels.getD q (.identity none)).doc (fk.kdims q) := by
    rw [List.getD_eq_getElem _ _ (by rw [List.length_map]; exact hq), List.getElem_map]
    unfold FK.kdims
    rw [List.getD_eq_getElem _ _ hq]
    rfl
  rw [this]
  exact scale_at h hX A _ hq

/-- a change of `B_q` only -/
theorem deriv_B (h : fk.Ready P) (hX : InputsOK fk.D P Xs) (hc : ExactContents fk Xs Ys l) (g : ℝ → FK) (t : ℝ) {q : ℕ} (hq : q < fk.Q) (A : Arr2 ℝ)
    (hQ : ∀ u, (g u).kernels = fk.kernels) (hN : ∀ u, (g u).noise = fk.noise)
    (hB : ∀ q' < fk.Q, ∀ a < fk.D, ∀ b < fk.D, (g t).B q' a b = fk.B q' a b ∧
      HasDerivAt (fun u => (g u).B q' a b) (if q' = q then A.get a b else 0) t) :
    ∃ v, (do let dK ← l.ops.dKdA A q
             l.ops.dL dK) = .ok v ∧ HasDerivAt (fun u => (g u).logLik Xs Ys) v t := by
  rw [dKdA_ok h hX hc A hq, ok_bind]
  have key := hasDerivAt_fullCov (fk := fk) Xs hX.len g t (fun q' a b => if q' = q then A.get a b else 0) (fun _ _ => 0) (fun _ => 0)
    (fun u => by unfold FK.Q; rw [hQ]) (fun u q _ => by unfold FK.kdims; rw [hQ]) hB
    (fun q _ x => by simp only [hQ]; exact ⟨trivial, hasDerivAt_const _ _⟩) (fun a _ => by simp only [hN]; exact ⟨trivial, hasDerivAt_const _ _⟩)
  refine derivative_correct hc g t _ (fun r hr s hs => (key r s hr hs).1) fun r hr s hs => ?_
  refine (key r s hr hs).2.congr_deriv ?_
  simp only [mul_zero, add_zero, ite_self, ite_mul, zero_mul]
  rw [Finset.sum_ite_eq' _ q, if_pos (Finset.mem_range.2 hq)]
  rfl

theorem B_of_vec {fk : FK} {q a b : ℕ} : fk.B q a b = (∑ r ∈ Finset.range (fk.coregVecs.getD q ⟨0, 0, []⟩).rows,
    (fk.coregVecs.getD q ⟨0, 0, []⟩).get r a * (fk.coregVecs.getD q ⟨0, 0, []⟩).get r b) +
  if a = b then (fk.coregDiags.getD q []).getD a 0 else 0 := rfl

theorem set_getD {α : Type} (L : List α) (q q' : ℕ) (x d : α) (hq : q < L.length) : (L.set q x).getD q' d = if q' = q then x else L.getD q' d := by
  by_cases e : q' = q
  · subst e; rw [if_pos rfl, List.getD_eq_getElem _ _ (by simpa using hq), List.getElem_set_self]
  · rw [if_neg e, List.getD_eq_getElem?_getD, List.getD_eq_getElem?_getD, List.getElem?_set_ne (Ne.symm e)]

/-- the derivative of `B` along `A_q[i, j]` -/
theorem hasDerivAt_B_vec (hw : fk.WF) {q i j : ℕ} (hq : q < fk.Q) (hi : i < (fk.coregVecs.getD q ⟨0, 0, []⟩).rows) :
    ∀ q' < fk.Q, ∀ a < fk.D, ∀ b < fk.D,
      (fk.setVec q i j ((fk.coregVecs.getD q ⟨0, 0, []⟩).get i j)).B q' a b = fk.B q' a b ∧
      HasDerivAt (fun u => (fk.setVec q i j u).B q' a b)
        (if q' = q then (dAdt fk.D ((fk.coregVecs.getD q ⟨0, 0, []⟩).row i) j).get a b else 0) ((fk.coregVecs.getD q ⟨0, 0, []⟩).get i j) := by
  intro q' hq' a ha b hb
  have hql : q < fk.coregVecs.length := by rw [hw.vecs]; exact hq
  obtain ⟨-, hcols, -⟩ := hw.vec q hq
  have e : ∀ u, (fk.setVec q i j u).B q' a b = if q' = q then
      (∑ r ∈ Finset.range (fk.coregVecs.getD q ⟨0, 0, []⟩).rows,
        (if r = i ∧ a = j then u else (fk.coregVecs.getD q ⟨0, 0, []⟩).get r a) * (if r = i ∧ b = j then u else (fk.coregVecs.getD q ⟨0, 0, []⟩).get r b)) +
      (if a = b then (fk.coregDiags.getD q []).getD a 0 else 0) else fk.B q' a b := by
    intro u
    unfold FK.setVec FK.B
    simp only [set_getD _ _ _ _ _ hql]
    by_cases e : q' = q
    · subst e
      simp only [if_true]
      congr 1
      refine Finset.sum_congr rfl fun r hr => ?_
      have hr := Finset.mem_range.1 hr
      rw [Arr2.of_get (by exact hr) (by rw [hcols]; exact ha), Arr2.of_get (by exact hr) (by rw [hcols]; exact hb)]
    · simp only [if_neg e]
  simp only [e]
  by_cases eq : q' = q
  swap
  · simp only [if_neg eq]; exact ⟨trivial, hasDerivAt_const _ _⟩
  subst eq
  simp only [if_true]
  set M := fk.coregVecs.getD q' ⟨0, 0, []⟩ with hM
  have e0 : ∀ r c, (if r = i ∧ c = j then M.get i j else M.get r c) = M.get r c := by
    intro r c
    split_ifs with h
    · rw [h.1, h.2]
    · rfl
  constructor
  · simp only [e0]; rfl
  · refine HasDerivAt.add_const _ ?_
    have hd : ∀ r c, HasDerivAt (fun u => if r = i ∧ c = j then u else M.get r c) (if r = i ∧ c = j then 1 else 0) (M.get i j) := by
      intro r c
      by_cases h : r = i ∧ c = j
      · simp only [if_pos h]; exact hasDerivAt_id' _
      · simp only [if_neg h]; exact hasDerivAt_const _ _
    refine (HasDerivAt.fun_sum fun r _ => (hd r a).fun_mul (hd r b)).congr_deriv ?_
    simp only [e0]
    rw [Finset.sum_add_distrib]
    have s1 : ∑ r ∈ Finset.range M.rows, (if r = i ∧ a = j then (1 : ℝ) else 0) * M.get r b = if a = j then M.get i b else 0 := by
      rw [Finset.sum_eq_single i]
      · simp
      · intro r _ hr; simp [hr]
      · intro h; exact absurd (Finset.mem_range.2 hi) h
    have s2 : ∑ r ∈ Finset.range M.rows, M.get r a * (if r = i ∧ b = j then (1 : ℝ) else 0) = if b = j then M.get i a else 0 := by
      rw [Finset.sum_eq_single i]
      · simp
      · intro r _ hr; simp [hr]
      · intro h; exact absurd (Finset.mem_range.2 hi) h
    rw [s1, s2]
    unfold dAdt
    simp only
    rw [Arr2.of_get ha hb, Arr2.of_get ha hb, Arr2.row_getD (by rw [hcols]; exact hb), Arr2.row_getD (by rw [hcols]; exact ha)]
    unfold Arr2.zeros
    rw [Arr2.of_get ha hb, zero_add]

/-- C37: `coreg_vec_gradients` are the partial derivatives of the log marginal likelihood in the entries of the coregionalization vectors. -/
theorem C37_coreg_vec (h : fk.Ready P) (hd : DataOK fk.D P Xs Ys) (hl : exactLMCNew fk Xs Ys = .ok l) :
    ∃ G, coregVecGradients fk l.ops = .ok G ∧ G.length = fk.Q ∧ ∀ q < fk.Q,
      (G.getD q ⟨0, 0, []⟩).rows = (fk.coregVecs.getD q ⟨0, 0, []⟩).rows ∧ (G.getD q ⟨0, 0, []⟩).cols = fk.D ∧
      ∀ i < (fk.coregVecs.getD q ⟨0, 0, []⟩).rows, ∀ j < fk.D,
        HasDerivAt (fun t => (fk.setVec q i j t).logLik Xs Ys) ((G.getD q ⟨0, 0, []⟩).get i j) ((fk.coregVecs.getD q ⟨0, 0, []⟩).get i j) := by
  have hc := contents_of_ok h hd hl
  unfold coregVecGradients
  rw [show fk.coregVecs.length = fk.Q from h.wf.vecs]
  refine mapExcept_range (R := fun q (G : Arr2 ℝ) => G.rows = (fk.coregVecs.getD q ⟨0, 0, []⟩).rows ∧ G.cols = fk.D ∧
      ∀ i < (fk.coregVecs.getD q ⟨0, 0, []⟩).rows, ∀ j < fk.D,
        HasDerivAt (fun t => (fk.setVec q i j t).logLik Xs Ys) (G.get i j) ((fk.coregVecs.getD q ⟨0, 0, []⟩).get i j)) _ fun q hq => ?_
  obtain ⟨-, hcols, -⟩ := h.wf.vec q hq
  unfold coregVecGradient
  obtain ⟨rows, h1, h2, h3⟩ := mapExcept_range (n := (fk.coregVecs.getD q ⟨0, 0, []⟩).rows)
    (f := fun i => mapExcept (fun j => do
      let dK ← l.ops.dKdA (dAdt fk.D ((fk.coregVecs.getD q ⟨0, 0, []⟩).row i) j) q
      l.ops.dL dK) (List.range fk.D))
    (R := fun i ys => ∀ j < fk.D, HasDerivAt (fun t => (fk.setVec q i j t).logLik Xs Ys) (ys.getD j 0) ((fk.coregVecs.getD q ⟨0, 0, []⟩).get i j)) []
    (fun i hi => by
      obtain ⟨ys, y1, y2, y3⟩ := mapExcept_range (n := fk.D) (f := fun j => do
          let dK ← l.ops.dKdA (dAdt fk.D ((fk.coregVecs.getD q ⟨0, 0, []⟩).row i) j) q
          l.ops.dL dK)
        (R := fun j y => HasDerivAt (fun t => (fk.setVec q i j t).logLik Xs Ys) y ((fk.coregVecs.getD q ⟨0, 0, []⟩).get i j)) 0
        (fun j _ => deriv_B h hd.inputs hc (fk.setVec q i j) _ hq _ (fun _ => rfl) (fun _ => rfl) (hasDerivAt_B_vec h.wf hq hi))
      exact ⟨ys, y1, y3⟩)
  rw [h1]
  refine ⟨_, rfl, rfl, hcols, fun i hi j hj => ?_⟩
  rw [Arr2.of_get hi (by rw [hcols]; exact hj)]
  exact h3 i hi j hj

/-- the derivative of `B` along `kappa_q[i]` -/
theorem hasDerivAt_B_diag (hw : fk.WF) {q i : ℕ} (hq : q < fk.Q) (hi : i < fk.D) (A : Arr2 ℝ)
    (hA : ∀ a < fk.D, ∀ b < fk.D, A.get a b = if a = i ∧ b = i then 1 else 0) :
    ∀ q' < fk.Q, ∀ a < fk.D, ∀ b < fk.D,
      (fk.setDiag q i ((fk.coregDiags.getD q []).getD i 0)).B q' a b = fk.B q' a b ∧
      HasDerivAt (fun u => (fk.setDiag q i u).B q' a b) (if q' = q then A.get a b else 0) ((fk.coregDiags.getD q []).getD i 0) := by
  intro q' hq' a ha b hb
  have hql : q < fk.coregDiags.length := by rw [hw.diags]; exact hq
  have hil : i < (fk.coregDiags.getD q []).length := by rw [hw.diag q hq]; exact hi
  have e : ∀ u, (fk.setDiag q i u).B q' a b = if q' = q then
      (∑ r ∈ Finset.range (fk.coregVecs.getD q ⟨0, 0, []⟩).rows, (fk.coregVecs.getD q ⟨0, 0, []⟩).get r a * (fk.coregVecs.getD q ⟨0, 0, []⟩).get r b) +
      (if a = b then (if a = i then u else (fk.coregDiags.getD q []).getD a 0) else 0) else fk.B q' a b := by
    intro u
    unfold FK.setDiag FK.B
    simp only [set_getD _ _ _ _ _ hql]
    by_cases e : q' = q
    · subst e
      simp only [if_true, set_getD _ _ _ _ _ hil]
    · simp only [if_neg e]
  simp only [e]
  by_cases eq : q' = q
  swap
  · simp only [if_neg eq]; exact ⟨trivial, hasDerivAt_const _ _⟩
  subst eq
  simp only [if_true]
  constructor
  · have : (if a = i then (fk.coregDiags.getD q' []).getD i 0 else (fk.coregDiags.getD q' []).getD a 0) = (fk.coregDiags.getD q' []).getD a 0 := by
      split_ifs with h
      · rw [h]
      · rfl
    rw [this]
    rfl
  · refine HasDerivAt.const_add _ ?_
    rw [hA a ha b hb]
    by_cases e1 : a = b
    · subst e1
      by_cases e2 : a = i
      · simp only [if_true, if_pos e2, and_self]; exact hasDerivAt_id' _
      · simp only [if_true, if_neg e2, and_self]; exact hasDerivAt_const _ _
    · have : ¬ (a = i ∧ b = i) := fun h => e1 (h.1.trans h.2.symm)
      simp only [if_neg e1, if_neg this]; exact hasDerivAt_const _ _

/-- the loop of `coreg_diags_gradients` leaves its scratch array zero -/
theorem diag_loop {δ : Type} {ops : LikOps δ} {q D : ℕ} {R : ℕ → ℝ → Prop}
    (h : ∀ i < D, ∃ v, (do let dK ← ops.dKdA (Arr2.of D D fun a b => if a = i ∧ b = i then 1 else 0) q
                           ops.dL dK) = .ok v ∧ R i v) : ∀ k ≤ D,
    ∃ gs, (List.range k).foldlM (diagGradStep ops q) (Arr2.zeros D D, []) = .ok (Arr2.zeros D D, gs) ∧ gs.length = k ∧
      ∀ i < k, R i (gs.getD i 0) := by
  intro k
  induction k with
  | zero => intro _; exact ⟨[], rfl, rfl, by simp⟩
  | succ k ih =>
    intro hk
    obtain ⟨gs, h1, h2, h3⟩ := ih (by omega)
    obtain ⟨v, v1, v2⟩ := h k (by omega)
    refine ⟨gs ++ [v], ?_, by simp [h2], ?_⟩
    · rw [List.range_succ, List.foldlM_append, h1]
      simp only [ok_bind, List.foldlM_cons, List.foldlM_nil]
      have e1 : setDiagEntry (Arr2.zeros D D) k 1 = Arr2.of D D fun a b => if a = k ∧ b = k then 1 else 0 := by
        unfold setDiagEntry Arr2.zeros
        refine Arr2.of_congr fun a ha b hb => ?_
        rw [Arr2.of_get (by exact ha) (by exact hb)]
      have e2 : setDiagEntry (Arr2.of D D fun a b => if a = k ∧ b = k then (1 : ℝ) else 0) k 0 = Arr2.zeros D D := by
        unfold setDiagEntry Arr2.zeros
        refine Arr2.of_congr fun a ha b hb => ?_
        rw [Arr2.of_get (by exact ha) (by exact hb)]
        split_ifs <;> rfl
      unfold diagGradStep
      simp only [e1]
      cases hK : ops.dKdA (Arr2.of D D fun a b => if a = k ∧ b = k then 1 else 0) q with
      | error e => rw [hK] at v1; cases v1
      | ok dK =>
        rw [hK] at v1
        simp only [ok_bind] at v1 ⊢
        rw [v1]
        simp only [ok_bind, e2]
        rfl
    · intro i hi
      by_cases e : i = k
      · subst e
        rw [List.getD_eq_getElem?_getD, List.getElem?_append_right (by omega)]
        simpa [h2] using v2
      · have := h3 i (by omega)
        rw [List.getD_eq_getElem?_getD] at this ⊢
        rwa [List.getElem?_append_left (by omega)]

/-- C37: `coreg_diags_gradients` are the partial derivatives of the log marginal likelihood in the entries of `kappa`. -/
theorem C37_coreg_diags (h : fk.Ready P) (hd : DataOK fk.D P Xs Ys) (hl : exactLMCNew fk Xs Ys = .ok l) :
    ∃ G, coregDiagsGradients fk l.ops = .ok G ∧ G.length = fk.Q ∧ ∀ q < fk.Q, (G.getD q []).length = fk.D ∧ ∀ i < fk.D,
      HasDerivAt (fun t => (fk.setDiag q i t).logLik Xs Ys) ((G.getD q []).getD i 0) ((fk.coregDiags.getD q []).getD i 0) := by
  have hc := contents_of_ok h hd hl
  unfold coregDiagsGradients
  refine mapExcept_range (R := fun q (G : List ℝ) => G.length = fk.D ∧ ∀ i < fk.D,
      HasDerivAt (fun t => (fk.setDiag q i t).logLik Xs Ys) (G.getD i 0) ((fk.coregDiags.getD q []).getD i 0)) _ fun q hq => ?_
  obtain ⟨gs, h1, h2, h3⟩ := diag_loop (ops := l.ops) (q := q) (D := fk.D)
    (R := fun i v => HasDerivAt (fun t => (fk.setDiag q i t).logLik Xs Ys) v ((fk.coregDiags.getD q []).getD i 0))
    (fun i hi => deriv_B h hd.inputs hc (fk.setDiag q i) _ hq _ (fun _ => rfl) (fun _ => rfl)
      (hasDerivAt_B_diag h.wf hq hi _ fun a ha b hb => Arr2.of_get ha hb)) fk.D le_rfl
  rw [h1]
  exact ⟨gs, rfl, h2, h3⟩

theorem setParam_self : ∀ (k : Kern) (j : ℕ), k.setParam j (k.params.getD j 0) = k ∨ k.params.length ≤ j
  | .rbf g a, j => by rcases j with _ | j <;> simp [Kern.setParam, Kern.params]
  | .matern32 g a, j => by rcases j with _ | j <;> simp [Kern.setParam, Kern.params]
  | .stdPeriodic g T a, j => by rcases j with _ | _ | j <;> simp [Kern.setParam, Kern.params]
  | .identity a, j => by simp [Kern.setParam]
  | .scaled k s a, j => by
    by_cases hj : j < k.params.length
    · rcases setParam_self k j with h | h
      · left
        simp only [Kern.setParam, Kern.params]
        rw [if_neg (by omega), List.getD_eq_getElem?_getD, List.getElem?_append_left hj, ← List.getD_eq_getElem?_getD, h]
      · omega
    · by_cases e : j = k.params.length
      · left
        subst e
        have hk : ∀ (k : Kern) (t : ℝ), k.setParam k.params.length t = k := by
          intro k
          induction k with
          | scaled k s a ih =>
            intro t
            simp only [Kern.setParam, Kern.params, List.length_append, List.length_singleton]
            rw [if_neg (by omega)]
            congr 1
            have : ∀ (k : Kern) (j : ℕ) (t : ℝ), k.params.length ≤ j → k.setParam j t = k := by
              intro k
              induction k with
              | scaled k s a ih =>
                intro j t hj
                simp only [Kern.params, List.length_append, List.length_singleton] at hj
                simp only [Kern.setParam]
                rw [if_neg (by omega), ih j t (by omega)]
              | stdPeriodic g T a =>
                intro j t hj
                simp only [Kern.params, List.length_cons, List.length_nil] at hj
                simp only [Kern.setParam]
                rw [if_neg (by omega), if_neg (by omega)]
              | identity a => intro j t hj; rfl
              | _ =>
                intro j t hj
                simp only [Kern.params, List.length_cons, List.length_nil] at hj
                simp only [Kern.setParam]
                rw [if_neg (by omega)]
            exact this k _ t (by omega)
          | _ => intro t; simp [Kern.setParam, Kern.params]
        simp [Kern.setParam, Kern.params, hk]
      · right
        simp only [Kern.params, List.length_append, List.length_singleton]
        omega

theorem setParam_activeDims (k : Kern) (j : ℕ) (t : ℝ) : (k.setParam j t).activeDims = k.activeDims := by
  cases k <;> rfl

/-- C37: `kernel_gradients` are the partial derivatives of the log marginal likelihood in the hyperparameters of the kernels. -/
theorem C37_kernels (h : fk.Ready P) (hd : DataOK fk.D P Xs Ys) (hl : exactLMCNew fk Xs Ys = .ok l) :
    ∃ G, kernelGradients fk l.ops = .ok G ∧ G.length = fk.Q ∧ ∀ q < fk.Q,
      (G.getD q []).length = (fk.kernels.getD q (.identity none)).params.length ∧
      ∀ j < (fk.kernels.getD q (.identity none)).params.length,
        HasDerivAt (fun t => (fk.setKern q j t).logLik Xs Ys) ((G.getD q []).getD j 0) ((fk.kernels.getD q (.identity none)).params.getD j 0) := by
  have hc := contents_of_ok h hd hl
  have hcl := (C31_coreg_entries fk h.wf).1
  have hX := hd.inputs
  have hlen : (Xs.map Arr2.rows).length = fk.D := by rw [List.length_map, hX.len]
  unfold kernelGradients
  rw [hcl]
  refine mapExcept_range (R := fun q (G : List ℝ) => G.length = (fk.kernels.getD q (.identity none)).params.length ∧
      ∀ j < (fk.kernels.getD q (.identity none)).params.length,
        HasDerivAt (fun t => (fk.setKern q j t).logLik Xs Ys) (G.getD j 0) ((fk.kernels.getD q (.identity none)).params.getD j 0)) _ fun q hq => ?_
  obtain ⟨-, -, hB⟩ := coregMats_B h.wf hq
  set A := fk.coregMats.getD q ⟨0, 0, []⟩ with hA
  set k := fk.kernels.getD q (.identity none) with hk
  have hgl : l.grads.length = fk.kernels.length := hc.grads.length_eq.symm
  obtain ⟨fs, f1, f2, f3⟩ : GradsOf (npVstack Xs) k (l.grads.getD q []) := by
    have := (List.forall₂_iff_get.1 hc.grads).2 q hq (by rw [hgl]; exact hq)
    rw [hk, List.getD_eq_getElem _ _ hq, List.getD_eq_getElem _ _ (by rw [hgl]; exact hq)]
    exact this
  have hdK : l.ops.dKq A q = .ok (fs.map fun f => Arr2.of (Xs.map Arr2.rows).sum (Xs.map Arr2.rows).sum fun r s =>
        A.get (ownerOf (Xs.map Arr2.rows) r) (ownerOf (Xs.map Arr2.rows) s) * fk.kAt Xs f q r s) := by
    unfold ExactLMC.ops
    simp only
    rw [f1, mapExcept_map, hc.kern, hc.lens]
    refine mapExcept_ok fun f _ => ?_
    rw [show (⟨[(npVstack Xs).rows, (npVstack Xs).rows], (distArrOf (npVstack Xs) (npVstack Xs) (k.activeDims.getD [])).data.map f⟩ : NDArr ℝ) =
      ⟨[(npVstack Xs).rows, (npVstack Xs).rows], (distArrOf (npVstack Xs) (npVstack Xs) (fk.kdims q)).data.map f⟩ from rfl, kvalArr2_ok, ok_bind]
    exact scale_at h hX A f hq
  rw [hdK, ok_bind, mapExcept_map]
  have hj : ∀ j, (hj : j < fs.length) → ∃ v, l.ops.dL (Arr2.of (Xs.map Arr2.rows).sum (Xs.map Arr2.rows).sum fun r s =>
        A.get (ownerOf (Xs.map Arr2.rows) r) (ownerOf (Xs.map Arr2.rows) s) * fk.kAt Xs fs[j] q r s) = .ok v ∧
        HasDerivAt (fun t => (fk.setKern q j t).logLik Xs Ys) v (k.params.getD j 0) := by
    intro j hj
    have hql : q < fk.kernels.length := hq
    have key := hasDerivAt_fullCov (fk := fk) Xs hX.len (fk.setKern q j) (k.params.getD j 0) (fun _ _ _ => 0)
      (fun q' x => if q' = q then fs[j] x else 0) (fun _ => 0)
      (fun u => by simp [FK.Q, FK.setKern]) (fun u q' _ => by
        unfold FK.kdims FK.setKern
        simp only [set_getD _ _ _ _ _ hql]
        split_ifs with e
        · rw [setParam_activeDims, e]
        · rfl) (fun q _ a _ b _ => ⟨rfl, hasDerivAt_const _ (fk.B q a b)⟩)
      (fun q' _ x => by
        unfold FK.setKern
        simp only [set_getD _ _ _ _ _ hql]
        by_cases e : q' = q
        · simp only [if_pos e]
          refine ⟨?_, ?_⟩
          · rw [e]
            rcases setParam_self (fk.kernels.getD q (.identity none)) j with h | h
            · rw [← hk] at h ⊢; rw [h]
            · rw [← hk] at h; omega
          · have := f3 j (by omega) x
            rwa [List.getD_eq_getElem _ _ hj] at this
        · simp only [if_neg e]
          exact ⟨trivial, hasDerivAt_const _ _⟩)
      (fun a _ => ⟨rfl, hasDerivAt_const _ (fk.noise.getD a 0)⟩)
    refine derivative_correct hc (fk.setKern q j) _ _ (fun r hr s hs => (key r s hr hs).1) fun r hr s hs => ?_
    refine (key r s hr hs).2.congr_deriv ?_
    simp only [zero_mul, zero_add, ite_self, add_zero, mul_ite, mul_zero]
    rw [Finset.sum_ite_eq' _ q, if_pos (Finset.mem_range.2 hq), hB _ (hlen ▸ ownerOf_lt _ r hr) _ (hlen ▸ ownerOf_lt _ s hs)]
    rfl
  obtain ⟨ys, y1, y2⟩ := mapExcept_forall2 (l := fs) (f := fun f => l.ops.dL (Arr2.of (Xs.map Arr2.rows).sum (Xs.map Arr2.rows).sum fun r s =>
        A.get (ownerOf (Xs.map Arr2.rows) r) (ownerOf (Xs.map Arr2.rows) s) * fk.kAt Xs f q r s))
      (R := fun f v => l.ops.dL (Arr2.of (Xs.map Arr2.rows).sum (Xs.map Arr2.rows).sum fun r s =>
        A.get (ownerOf (Xs.map Arr2.rows) r) (ownerOf (Xs.map Arr2.rows) s) * fk.kAt Xs f q r s) = .ok v)
      (fun f hf => by
        obtain ⟨j, hjl, rfl⟩ := List.getElem_of_mem hf
        obtain ⟨v, v1, -⟩ := hj j hjl
        exact ⟨v, v1, v1⟩)
  have hyl := y2.length_eq
  refine ⟨ys, y1, by omega, fun j hjk => ?_⟩
  obtain ⟨v, v1, v2⟩ := hj j (by omega)
  have := (List.forall₂_iff_get.1 y2).2 j (by omega) (by omega)
  simp only [List.get_eq_getElem] at this
  rw [v1] at this
  cases this
  rw [List.getD_eq_getElem _ _ (by omega)]
  exact v2

/-- C37: `noise_gradient` are the partial derivatives of the log marginal likelihood in the noise parameters. -/
theorem C37_noise (h : fk.Ready P) (hd : DataOK fk.D P Xs Ys) (hl : exactLMCNew fk Xs Ys = .ok l) :
    ∃ G, noiseGradient fk l.ops = .ok G ∧ G.length = fk.D ∧ ∀ i < fk.D,
      HasDerivAt (fun t => (fk.setNoise i t).logLik Xs Ys) (G.getD i 0) (fk.noise.getD i 0) := by
  have hc := contents_of_ok h hd hl
  have hX := hd.inputs
  have hlen : (Xs.map Arr2.rows).length = fk.D := by rw [List.length_map, hX.len]
  unfold noiseGradient
  refine mapExcept_range (R := fun i v => HasDerivAt (fun t => (fk.setNoise i t).logLik Xs Ys) v (fk.noise.getD i 0)) _ fun i hi => ?_
  have hil : i < fk.noise.length := by rw [h.wf.noise]; exact hi
  have e : l.ops.dKEps (vmk fk.D fun j => if j = i then 1 else 0) = .ok (Arr2.of (Xs.map Arr2.rows).sum (Xs.map Arr2.rows).sum fun r s =>
      if r = s then (if ownerOf (Xs.map Arr2.rows) r = i then 1 else 0) else 0) := by
    unfold ExactLMC.ops
    simp only
    rw [hc.lens, npDiag_get _ (Xs.map Arr2.rows).sum (npRepeat_length _ _ (by rw [vmk_length, hlen]))]
    congr 1
    refine Arr2.of_congr fun r hr s hs => ?_
    rw [npRepeat_getD _ _ _ (by rw [vmk_length, hlen]) hr, vmk_getD_lt (hlen ▸ ownerOf_lt _ r hr)]
  rw [e, ok_bind]
  have key := hasDerivAt_fullCov (fk := fk) Xs hX.len (fk.setNoise i) (fk.noise.getD i 0) (fun _ _ _ => 0)
      (fun _ _ => 0) (fun a => if a = i then 1 else 0) (fun _ => rfl) (fun _ _ _ => rfl) (fun q _ a _ b _ => ⟨rfl, hasDerivAt_const _ (fk.B q a b)⟩)
      (fun q _ x => ⟨rfl, hasDerivAt_const _ ((fk.kernels.getD q (.identity none)).doc x)⟩) (fun a _ => by
        unfold FK.setNoise
        simp only [set_getD _ _ _ _ _ hil]
        by_cases e : a = i
        · simp only [if_pos e]
          exact ⟨by rw [e], hasDerivAt_id' _⟩
        · simp only [if_neg e]
          exact ⟨trivial, hasDerivAt_const _ _⟩)
  refine derivative_correct hc (fk.setNoise i) _ _ (fun r hr s hs => (key r s hr hs).1) fun r hr s hs => ?_
  refine (key r s hr hs).2.congr_deriv ?_
  simp

/-- C37: after `update_gradient(likelihood)` the gradient of every parameter is the partial derivative of the log marginal likelihood. -/
theorem C37_update_gradient (h : fk.Ready P) (hd : DataOK fk.D P Xs Ys) (hl : exactLMCNew fk Xs Ys = .ok l) :
    ∃ G, fk.updateGradient l.ops = .ok G ∧
      (∀ q < fk.Q, ∀ i < (fk.coregVecs.getD q ⟨0, 0, []⟩).rows, ∀ j < fk.D,
        HasDerivAt (fun t => (fk.setVec q i j t).logLik Xs Ys) ((G.vecs.getD q ⟨0, 0, []⟩).get i j) ((fk.coregVecs.getD q ⟨0, 0, []⟩).get i j)) ∧
      (∀ q < fk.Q, ∀ i < fk.D,
        HasDerivAt (fun t => (fk.setDiag q i t).logLik Xs Ys) ((G.diags.getD q []).getD i 0) ((fk.coregDiags.getD q []).getD i 0)) ∧
      (∀ q < fk.Q, ∀ j < (fk.kernels.getD q (.identity none)).params.length,
        HasDerivAt (fun t => (fk.setKern q j t).logLik Xs Ys) ((G.kernels.getD q []).getD j 0) ((fk.kernels.getD q (.identity none)).params.getD j 0)) ∧
      ∀ i < fk.D, HasDerivAt (fun t => (fk.setNoise i t).logLik Xs Ys) (G.noise.getD i 0) (fk.noise.getD i 0) := by
  obtain ⟨G1, a1, a2, a3⟩ := C37_coreg_vec h hd hl
  obtain ⟨G2, b1, b2, b3⟩ := C37_coreg_diags h hd hl
  obtain ⟨G3, c1, c2, c3⟩ := C37_kernels h hd hl
  obtain ⟨G4, d1, d2, d3⟩ := C37_noise h hd hl
  have hkl : fk.kernels.length = G3.length := by rw [c2]; rfl
  have hz : mapExcept (fun kd : Kern × List ℝ => kd.1.updateGradient kd.2) (fk.kernels.zip G3) = .ok ((fk.kernels.zip G3).map Prod.snd) := by
    refine mapExcept_ok fun kd hkd => C28_update_gradient _ _ ?_
    obtain ⟨i, hi, rfl⟩ := List.getElem_of_mem hkd
    have hi' : i < fk.kernels.length ∧ i < G3.length := by rw [List.length_zip] at hi; omega
    rw [List.getElem_zip]
    have := (c3 i hi'.1).1
    rwa [List.getD_eq_getElem _ _ hi'.1, List.getD_eq_getElem _ _ hi'.2] at this
  refine ⟨⟨G1, G2, G3, G4⟩, ?_, fun q hq => (a3 q hq).2.2, fun q hq => (b3 q hq).2, fun q hq => (c3 q hq).2, d3⟩
  unfold FK.updateGradient
  rw [assertP_ok h, a1, b1, c1, d1]
  simp only [ok_bind, hz, List.map_snd_zip hkl.ge]
  rfl

end

/-- C37 applies to a model with two correlated outputs and an independent component -/
example : ∃ fk : FK, ∃ Xs Ys l, fk.Ready 1 ∧ DataOK fk.D 1 Xs Ys ∧ exactLMCNew fk Xs Ys = .ok l ∧ fk.Q = 2 ∧
    (fk.coregVecs.getD 0 ⟨0, 0, []⟩).get 1 1 = 2 := by
  obtain ⟨fk, h, hD, hQ, ha, hκ, hn, hv⟩ := exists_ready
  have hd := example_data hD
  obtain ⟨l, h1, -, -⟩ := C36_positive_definite fk 1 h _ _ hd (fun q hq => C36_kernels_psd fk 1 h q hq (.inl (ha q hq))) hκ hn
  exact ⟨fk, _, _, l, h, hd, h1, hQ, hv⟩

end Verif
