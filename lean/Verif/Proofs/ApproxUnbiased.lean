import Verif.Proofs.ApproxGrad
import Verif.Proofs.LLGPComplete
import Verif.Proofs.SkiPsd

/-! The approximate gradients as a function of the probes, and their average. -/

namespace Verif

open Matrix

/-! ### the derivative of the SKI covariance along a parameter -/

/-- the SKI covariance kernel by kernel, for a functional kernel with the groups of another -/
theorem skiCov_kernels_of {fk fk' : FK} {P : ℕ} (h : fk.Ready P) (hg : fk.GroupsOK) (ha : fk'.activeDims = fk.activeDims) (axes : List ℕ → List (List ℝ))
    (extra : List ℕ × List ℕ → ℝ) (a b : ℕ) (x z : ℕ → ℝ) :
    fk'.skiCov axes extra a b x z = (∑ q ∈ Finset.range fk.Q, fk'.B q a b * skiKernel (axes (fk.kdims q)) (fk.kdims q) (fk'.kernels.getD q (.identity none)).doc x z) +
      fk.extraPart axes extra a b x z := by
  rw [← sum_groups h hg fun ad q => fk'.B q a b * skiKernel (axes ad) ad (fk'.kernels.getD q (.identity none)).doc x z]
  unfold FK.skiCov FK.extraPart
  rw [ha, ← List.sum_map_add]
  refine congrArg List.sum (List.map_congr_left fun g _ => ?_)
  simp only [mul_add, add_mul, Finset.sum_add_distrib]
  congr 1
  unfold FK.gridCov skiKernel
  simp only [Finset.mul_sum]
  rw [← finset_list_sum]
  refine Finset.sum_congr rfl fun p _ => ?_
  rw [← finset_list_sum]
  refine Finset.sum_congr rfl fun q _ => ?_
  rw [← List.sum_map_mul_left, ← List.sum_map_mul_right]
  exact congrArg List.sum (List.map_congr_left fun k _ => by ring)

theorem hasDerivAt_skiKernel (axes : List (List ℝ)) (ad : List ℕ) {f : ℝ → ℝ → ℝ} {f' : ℝ → ℝ} {t : ℝ} (x z : ℕ → ℝ)
    (h : ∀ r, HasDerivAt (fun u => f u r) (f' r) t) : HasDerivAt (fun u => skiKernel axes ad (f u) x z) (skiKernel axes ad f' x z) t := by
  unfold skiKernel
  exact HasDerivAt.fun_sum fun p _ => HasDerivAt.fun_sum fun q _ => ((h _).const_mul _).mul_const _

section
variable {m : LLGP} {P : ℕ}

theorem hasDerivAt_skiFull (h : m.OK P) (extra : List ℕ × List ℕ → ℝ) (g : ℝ → FK) (t : ℝ)
    (B' : ℕ → ℕ → ℕ → ℝ) (k' : ℕ → ℝ → ℝ) (e' : ℕ → ℝ) (ha : ∀ u, (g u).activeDims = m.fk.activeDims)
    (hB : ∀ q < m.fk.Q, ∀ a < m.fk.D, ∀ b < m.fk.D, (g t).B q a b = m.fk.B q a b ∧ HasDerivAt (fun u => (g u).B q a b) (B' q a b) t)
    (hk : ∀ q < m.fk.Q, ∀ x, ((g t).kernels.getD q (.identity none)).doc x = (m.fk.kernels.getD q (.identity none)).doc x ∧
      HasDerivAt (fun u => ((g u).kernels.getD q (.identity none)).doc x) (k' q x) t)
    (he : ∀ a < m.fk.D, (g t).noise.getD a 0 = m.fk.noise.getD a 0 ∧ HasDerivAt (fun u => (g u).noise.getD a 0) (e' a) t)
    (r s : ℕ) (hr : r < m.n) (hs : s < m.n) :
    (g t).skiFull m.axesOf extra m.gp.Xs r s = m.fk.skiFull m.axesOf extra m.gp.Xs r s ∧
    HasDerivAt (fun u => (g u).skiFull m.axesOf extra m.gp.Xs r s)
      ((∑ q ∈ Finset.range m.fk.Q,
        (B' q (ownerOf (m.gp.Xs.map Arr2.rows) r) (ownerOf (m.gp.Xs.map Arr2.rows) s) * m.skiAt q (m.fk.kernels.getD q (.identity none)).doc r s +
          m.fk.B q (ownerOf (m.gp.Xs.map Arr2.rows) r) (ownerOf (m.gp.Xs.map Arr2.rows) s) * m.skiAt q (k' q) r s))
        + if r = s then e' (ownerOf (m.gp.Xs.map Arr2.rows) r) else 0) t := by
  have hl : (m.gp.Xs.map Arr2.rows).length = m.fk.D := by rw [List.length_map, h.data.inputs.len]
  have o1 : ownerOf (m.gp.Xs.map Arr2.rows) r < m.fk.D := hl ▸ ownerOf_lt _ r hr
  have o2 : ownerOf (m.gp.Xs.map Arr2.rows) s < m.fk.D := hl ▸ ownerOf_lt _ s hs
  have hdoc : ∀ q < m.fk.Q, ((g t).kernels.getD q (.identity none)).doc = (m.fk.kernels.getD q (.identity none)).doc := fun q hq => funext fun x => (hk q hq x).1
  unfold FK.skiFull
  simp only [skiCov_kernels_of h.ready h.groups (ha _), skiCov_kernels_of h.ready h.groups (rfl : m.fk.activeDims = m.fk.activeDims)]
  constructor
  · congr 1
    · congr 1
      refine Finset.sum_congr rfl fun q hq => ?_
      have hq := Finset.mem_range.1 hq
      rw [(hB q hq _ o1 _ o2).1, hdoc q hq]
    · rw [(he _ o1).1]
  · refine HasDerivAt.fun_add (HasDerivAt.add_const _ (HasDerivAt.fun_sum fun q hq => ?_)) ?_
    · have hq := Finset.mem_range.1 hq
      have := (hB q hq _ o1 _ o2).2.fun_mul (hasDerivAt_skiKernel (m.axesOf (m.fk.kdims q)) (m.fk.kdims q) (rowPoint m.gp.Xs r) (rowPoint m.gp.Xs s) fun x => (hk q hq x).2)
      rw [(hB q hq _ o1 _ o2).1, hdoc q hq] at this
      exact this
    · by_cases e : r = s
      · simp only [if_pos e]; exact (he _ o1).2
      · simp only [if_neg e]; exact hasDerivAt_const _ _

/-! ### what the probes give and their average -/

/-- the derivative of the log likelihood along a change `B` of the covariance, as estimated with the probes `z` -/
noncomputable def probeValue (n N : ℕ) (A : Matrix (Fin n) (Fin n) ℝ) (y : Fin n → ℝ) (z : Fin N → Fin n → Bool) (B : ℕ → ℕ → ℝ) : ℝ :=
  1 / 2 * ((A⁻¹ *ᵥ y) ⬝ᵥ fnMatrix n n B *ᵥ (A⁻¹ *ᵥ y) - (∑ k : Fin N, (fun i => sgnBit (z k i)) ⬝ᵥ (A⁻¹ᵀ * fnMatrix n n B) *ᵥ (fun i => sgnBit (z k i))) / N)

theorem avg_probeValue {n N : ℕ} (hN : 0 < N) {A : Matrix (Fin n) (Fin n) ℝ} (hA : A.PosDef) (y : Fin n → ℝ) (B : ℕ → ℕ → ℝ) :
    (∑ z : Fin N → Fin n → Bool, probeValue n N A y z B) / 2 ^ (N * n) =
      1 / 2 * ((A⁻¹ *ᵥ y) ⬝ᵥ fnMatrix n n B *ᵥ (A⁻¹ *ᵥ y) - ∑ r, ∑ s, fnMatrix n n B r s * A⁻¹ r s) := by
  have hs : A⁻¹ᵀ = A⁻¹ := by
    have : Aᵀ = A := by
      have := hA.isHermitian
      rwa [Matrix.IsHermitian, Matrix.conjTranspose_eq_transpose_of_trivial] at this
    rw [Matrix.transpose_nonsing_inv, this]
  have e2 : (A⁻¹ * fnMatrix n n B).trace = ∑ r, ∑ s, fnMatrix n n B r s * A⁻¹ r s := by
    rw [Matrix.trace]
    simp only [Matrix.diag_apply, Matrix.mul_apply]
    rw [Finset.sum_comm]
    refine Finset.sum_congr rfl fun r _ => Finset.sum_congr rfl fun s _ => ?_
    have : A⁻¹ s r = A⁻¹ r s := by
      conv_lhs => rw [← hs]
      rfl
    rw [this, mul_comm]
  unfold probeValue
  rw [hs]
  set q := (A⁻¹ *ᵥ y) ⬝ᵥ fnMatrix n n B *ᵥ (A⁻¹ *ᵥ y) with hq
  rw [← Finset.mul_sum, Finset.sum_sub_distrib, ← Finset.sum_div, Finset.sum_comm]
  simp only [avg_quadratic]
  rw [Finset.sum_const, Finset.sum_const, Finset.card_univ, Finset.card_univ, e2]
  simp only [Fintype.card_fun, Fintype.card_fin, Fintype.card_bool, nsmul_eq_mul]
  have h2 : (2 : ℝ) ^ (N * n) ≠ 0 := by positivity
  have h3 : (N : ℝ) ≠ 0 := by exact_mod_cast hN.ne'
  push_cast
  rw [show ((2 : ℝ) ^ n) ^ N = 2 ^ (N * n) by rw [← pow_mul, mul_comm]]
  field_simp

/-- the average of the estimates is the derivative of the log likelihood along a path of kernels -/
theorem avg_correct (hN : 0 < m.nIt) (extra : List ℕ × List ℕ → ℝ) (hp : (m.fk.skiMat m.axesOf extra m.gp.Xs).PosDef) (g : ℝ → FK) (t : ℝ) (f : ℕ → ℕ → ℝ)
    (hf : ∀ r < m.n, ∀ s < m.n, (g t).skiFull m.axesOf extra m.gp.Xs r s = m.fk.skiFull m.axesOf extra m.gp.Xs r s ∧
      HasDerivAt (fun u => (g u).skiFull m.axesOf extra m.gp.Xs r s) (f r s) t) :
    HasDerivAt (fun u => (g u).skiLogLik m.axesOf extra m.gp.Xs m.gp.Ys)
      ((∑ z : Fin m.nIt → Fin m.n → Bool, probeValue m.n m.nIt (m.fk.skiMat m.axesOf extra m.gp.Xs) (toVec m.n m.y) z f) / 2 ^ (m.nIt * m.n)) t := by
  have e : fnMatrix m.n m.n ((g t).skiFull m.axesOf extra m.gp.Xs) = m.fk.skiMat m.axesOf extra m.gp.Xs := by
    ext r s
    exact (hf r r.2 s s.2).1
  have := hasDerivAt_gauss (n := m.n) (K := fun u => (g u).skiFull m.axesOf extra m.gp.Xs) (K' := f) (t := t) m.y
    (fun r hr s hs => (hf r hr s hs).2) (by rw [e]; exact hp)
  rw [e] at this
  refine this.congr_deriv ?_
  exact (avg_probeValue (n := m.n) (A := m.fk.skiMat m.axesOf extra m.gp.Xs) hN hp (toVec m.n m.y) f).symm

/-- `f` is how the SKI covariance changes along the path `g` of kernels, which passes through the model's own at `t` -/
def LLGP.Along (m : LLGP) (extra : List ℕ × List ℕ → ℝ) (g : ℝ → FK) (t : ℝ) (f : ℕ → ℕ → ℝ) : Prop :=
  ∀ r < m.n, ∀ s < m.n, (g t).skiFull m.axesOf extra m.gp.Xs r s = m.fk.skiFull m.axesOf extra m.gp.Xs r s ∧
    HasDerivAt (fun u => (g u).skiFull m.axesOf extra m.gp.Xs r s) (f r s) t

/-- the estimates the probes give along `f` -/
noncomputable def LLGP.probeAt (m : LLGP) (z : Fin m.nIt → Fin m.n → Bool) (f : ℕ → ℕ → ℝ) : ℝ :=
  probeValue m.n m.nIt (m.fk.skiMat m.axesOf m.fk.extraOf m.gp.Xs) (toVec m.n m.y) z f

/-- the gradients when `Dv` takes the place of the derivative of the log likelihood along a change of the covariance -/
noncomputable def LLGP.gradWith (m : LLGP) (fs : ℕ → List (ℝ → ℝ)) (Dv : (ℕ → ℕ → ℝ) → ℝ) : FKGrad := gradOf m.fk (ownerOf (m.gp.Xs.map Arr2.rows)) m.skiAt fs Dv

/-- the gradients the probes `z` give -/
noncomputable def LLGP.probeGrad (m : LLGP) (fs : ℕ → List (ℝ → ℝ)) (z : Fin m.nIt → Fin m.n → Bool) : FKGrad :=
  m.gradWith fs (probeValue m.n m.nIt (m.fk.skiMat m.axesOf m.fk.extraOf m.gp.Xs) (toVec m.n m.y) z)

theorem param_vec (h : m.OK P) (fs : ℕ → List (ℝ → ℝ)) {q : ℕ} (hq : q < m.fk.Q) {i : ℕ}
    (hi : i < (m.fk.coregVecs.getD q ⟨0, 0, []⟩).rows) {j : ℕ} (hj : j < m.fk.D) :
    ∃ f, m.Along m.fk.extraOf (m.fk.setVec q i j) ((m.fk.coregVecs.getD q ⟨0, 0, []⟩).get i j) f ∧ ∀ Dv, ((m.gradWith fs Dv).vecs.getD q ⟨0, 0, []⟩).get i j = Dv f := by
  unfold LLGP.gradWith gradOf
  simp only [vmk_getD_lt hq, Arr2.of_get hi hj]
  refine ⟨_, ?_, fun Dv => rfl⟩
  intro r hr s hs
  have key := hasDerivAt_skiFull h m.fk.extraOf (m.fk.setVec q i j) _ _ (fun _ _ => 0) (fun _ => 0) (fun _ => rfl) (hasDerivAt_B_vec h.ready.wf hq hi)
    (fun q _ x => ⟨rfl, hasDerivAt_const _ ((m.fk.kernels.getD q (.identity none)).doc x)⟩) (fun a _ => ⟨rfl, hasDerivAt_const _ (m.fk.noise.getD a 0)⟩) r s hr hs
  refine ⟨key.1, key.2.congr_deriv ?_⟩
  have hz : ∀ q, m.skiAt q (fun _ => 0) r s = 0 := fun q => by simp [LLGP.skiAt, skiKernel]
  simp only [hz, mul_zero, add_zero, ite_self, ite_mul, zero_mul]
  rw [Finset.sum_ite_eq' _ q, if_pos (Finset.mem_range.2 hq)]

theorem probe_vec (h : m.OK P) (fs : ℕ → List (ℝ → ℝ)) {q : ℕ} (hq : q < m.fk.Q) {i : ℕ}
    (hi : i < (m.fk.coregVecs.getD q ⟨0, 0, []⟩).rows) {j : ℕ} (hj : j < m.fk.D) :
    ∃ f, m.Along m.fk.extraOf (m.fk.setVec q i j) ((m.fk.coregVecs.getD q ⟨0, 0, []⟩).get i j) f ∧ ∀ z, ((m.probeGrad fs z).vecs.getD q ⟨0, 0, []⟩).get i j = m.probeAt z f :=
  let ⟨f, h1, h2⟩ := param_vec h fs hq hi hj
  ⟨f, h1, fun _ => h2 _⟩

theorem avg_vec (h : m.OK P) (hN : 0 < m.nIt) (hp : (m.fk.skiMat m.axesOf m.fk.extraOf m.gp.Xs).PosDef) (fs : ℕ → List (ℝ → ℝ)) {q : ℕ} (hq : q < m.fk.Q) {i : ℕ}
    (hi : i < (m.fk.coregVecs.getD q ⟨0, 0, []⟩).rows) {j : ℕ} (hj : j < m.fk.D) :
    HasDerivAt (fun u => (m.fk.setVec q i j u).skiLogLik m.axesOf m.fk.extraOf m.gp.Xs m.gp.Ys)
      ((∑ z, ((m.probeGrad fs z).vecs.getD q ⟨0, 0, []⟩).get i j) / 2 ^ (m.nIt * m.n)) ((m.fk.coregVecs.getD q ⟨0, 0, []⟩).get i j) := by
  obtain ⟨f, hf', he⟩ := probe_vec h fs hq hi hj
  simp only [he]
  exact avg_correct hN _ hp _ _ f hf'

theorem param_diag (h : m.OK P) (fs : ℕ → List (ℝ → ℝ)) {q : ℕ} (hq : q < m.fk.Q) {i : ℕ}
    (hi : i < m.fk.D) :
    ∃ f, m.Along m.fk.extraOf (m.fk.setDiag q i) ((m.fk.coregDiags.getD q []).getD i 0) f ∧ ∀ Dv, ((m.gradWith fs Dv).diags.getD q []).getD i 0 = Dv f := by
  unfold LLGP.gradWith gradOf
  simp only [vmk_getD_lt hq, vmk_getD_lt hi]
  refine ⟨_, ?_, fun Dv => rfl⟩
  intro r hr s hs
  have key := hasDerivAt_skiFull h m.fk.extraOf (m.fk.setDiag q i) _ _ (fun _ _ => 0) (fun _ => 0) (fun _ => rfl)
    (hasDerivAt_B_diag h.ready.wf hq hi (Arr2.of m.fk.D m.fk.D fun a b => if a = i ∧ b = i then (1 : ℝ) else 0) fun a ha b hb => Arr2.of_get ha hb)
    (fun q _ x => ⟨rfl, hasDerivAt_const _ ((m.fk.kernels.getD q (.identity none)).doc x)⟩) (fun a _ => ⟨rfl, hasDerivAt_const _ (m.fk.noise.getD a 0)⟩) r s hr hs
  refine ⟨key.1, key.2.congr_deriv ?_⟩
  have hz : ∀ q, m.skiAt q (fun _ => 0) r s = 0 := fun q => by simp [LLGP.skiAt, skiKernel]
  simp only [hz, mul_zero, add_zero, ite_self, ite_mul, zero_mul]
  rw [Finset.sum_ite_eq' _ q, if_pos (Finset.mem_range.2 hq)]

theorem probe_diag (h : m.OK P) (fs : ℕ → List (ℝ → ℝ)) {q : ℕ} (hq : q < m.fk.Q) {i : ℕ}
    (hi : i < m.fk.D) :
    ∃ f, m.Along m.fk.extraOf (m.fk.setDiag q i) ((m.fk.coregDiags.getD q []).getD i 0) f ∧ ∀ z, ((m.probeGrad fs z).diags.getD q []).getD i 0 = m.probeAt z f :=
  let ⟨f, h1, h2⟩ := param_diag h fs hq hi
  ⟨f, h1, fun _ => h2 _⟩

theorem avg_diag (h : m.OK P) (hN : 0 < m.nIt) (hp : (m.fk.skiMat m.axesOf m.fk.extraOf m.gp.Xs).PosDef) (fs : ℕ → List (ℝ → ℝ)) {q : ℕ} (hq : q < m.fk.Q) {i : ℕ}
    (hi : i < m.fk.D) :
    HasDerivAt (fun u => (m.fk.setDiag q i u).skiLogLik m.axesOf m.fk.extraOf m.gp.Xs m.gp.Ys)
      ((∑ z, ((m.probeGrad fs z).diags.getD q []).getD i 0) / 2 ^ (m.nIt * m.n)) ((m.fk.coregDiags.getD q []).getD i 0) := by
  obtain ⟨f, hf', he⟩ := probe_diag h fs hq hi
  simp only [he]
  exact avg_correct hN _ hp _ _ f hf'

theorem param_kern (h : m.OK P) {fs : ℕ → List (ℝ → ℝ)} (hf : GradFns m fs) {q : ℕ}
    (hq : q < m.fk.Q) {j : ℕ} (hj : j < (m.fk.kernels.getD q (.identity none)).params.length) :
    ∃ f, m.Along m.fk.extraOf (m.fk.setKern q j) ((m.fk.kernels.getD q (.identity none)).params.getD j 0) f ∧ ∀ Dv, ((m.gradWith fs Dv).kernels.getD q []).getD j 0 = Dv f := by
  have hjl : j < (fs q).length := by rw [hf.len q hq]; exact hj
  have hlen : (m.gp.Xs.map Arr2.rows).length = m.fk.D := by rw [List.length_map, h.data.inputs.len]
  obtain ⟨-, -, hB⟩ := coregMats_B h.ready.wf hq
  have hql : q < m.fk.kernels.length := hq
  unfold LLGP.gradWith gradOf
  have hmap : ∀ Dv : (ℝ → ℝ) → ℝ, ((fs q).map Dv).getD j 0 = Dv ((fs q).getD j fun _ => 0) := fun Dv => by
    rw [List.getD_eq_getElem _ _ (by rw [List.length_map]; exact hjl), List.getElem_map, List.getD_eq_getElem _ _ hjl]
  simp only [vmk_getD_lt hq, hmap]
  refine ⟨_, ?_, fun Dv => rfl⟩
  intro r hr s hs
  have key := hasDerivAt_skiFull h m.fk.extraOf (m.fk.setKern q j) ((m.fk.kernels.getD q (.identity none)).params.getD j 0) (fun _ _ _ => 0)
    (fun q' x => if q' = q then (fs q).getD j (fun _ => 0) x else 0) (fun _ => 0) (fun _ => rfl) (fun q _ a _ b _ => ⟨rfl, hasDerivAt_const _ (m.fk.B q a b)⟩)
    (fun q' _ x => by
      unfold FK.setKern
      simp only [set_getD _ _ _ _ _ hql]
      by_cases e : q' = q
      · simp only [if_pos e]
        refine ⟨?_, hf.deriv q hq j hj x⟩
        rw [e]
        rcases setParam_self (m.fk.kernels.getD q (.identity none)) j with h | h
        · rw [h]
        · omega
      · simp only [if_neg e]
        exact ⟨trivial, hasDerivAt_const _ _⟩)
    (fun a _ => ⟨rfl, hasDerivAt_const _ (m.fk.noise.getD a 0)⟩) r s hr hs
  refine ⟨key.1, key.2.congr_deriv ?_⟩
  have hz : ∀ q', m.skiAt q' (fun x => if q' = q then (fs q).getD j (fun _ => 0) x else 0) r s = if q' = q then m.skiAt q' ((fs q).getD j fun _ => 0) r s else 0 := fun q' => by
    by_cases e : q' = q
    · simp only [if_pos e]
    · simp only [if_neg e]; simp [LLGP.skiAt, skiKernel]
  simp only [hz, zero_mul, zero_add, ite_self, add_zero, mul_ite, mul_zero]
  rw [Finset.sum_ite_eq' _ q, if_pos (Finset.mem_range.2 hq), hB _ (hlen ▸ ownerOf_lt _ r hr) _ (hlen ▸ ownerOf_lt _ s hs)]

theorem probe_kern (h : m.OK P) {fs : ℕ → List (ℝ → ℝ)} (hf : GradFns m fs) {q : ℕ}
    (hq : q < m.fk.Q) {j : ℕ} (hj : j < (m.fk.kernels.getD q (.identity none)).params.length) :
    ∃ f, m.Along m.fk.extraOf (m.fk.setKern q j) ((m.fk.kernels.getD q (.identity none)).params.getD j 0) f ∧ ∀ z, ((m.probeGrad fs z).kernels.getD q []).getD j 0 = m.probeAt z f :=
  let ⟨f, h1, h2⟩ := param_kern h hf hq hj
  ⟨f, h1, fun _ => h2 _⟩

theorem avg_kern (h : m.OK P) (hN : 0 < m.nIt) (hp : (m.fk.skiMat m.axesOf m.fk.extraOf m.gp.Xs).PosDef) {fs : ℕ → List (ℝ → ℝ)} (hf : GradFns m fs) {q : ℕ}
    (hq : q < m.fk.Q) {j : ℕ} (hj : j < (m.fk.kernels.getD q (.identity none)).params.length) :
    HasDerivAt (fun u => (m.fk.setKern q j u).skiLogLik m.axesOf m.fk.extraOf m.gp.Xs m.gp.Ys)
      ((∑ z, ((m.probeGrad fs z).kernels.getD q []).getD j 0) / 2 ^ (m.nIt * m.n)) ((m.fk.kernels.getD q (.identity none)).params.getD j 0) := by
  obtain ⟨f, hf', he⟩ := probe_kern h hf hq hj
  simp only [he]
  exact avg_correct hN _ hp _ _ f hf'

theorem param_noise (h : m.OK P) (fs : ℕ → List (ℝ → ℝ)) {i : ℕ} (hi : i < m.fk.D) :
    ∃ f, m.Along m.fk.extraOf (m.fk.setNoise i) (m.fk.noise.getD i 0) f ∧ ∀ Dv, (m.gradWith fs Dv).noise.getD i 0 = Dv f := by
  have hil : i < m.fk.noise.length := by rw [h.ready.wf.noise]; exact hi
  unfold LLGP.gradWith gradOf
  simp only [vmk_getD_lt hi]
  refine ⟨_, ?_, fun Dv => rfl⟩
  intro r hr s hs
  have key := hasDerivAt_skiFull h m.fk.extraOf (m.fk.setNoise i) (m.fk.noise.getD i 0) (fun _ _ _ => 0) (fun _ _ => 0) (fun a => if a = i then 1 else 0) (fun _ => rfl)
    (fun q _ a _ b _ => ⟨rfl, hasDerivAt_const _ (m.fk.B q a b)⟩)
    (fun q _ x => ⟨rfl, hasDerivAt_const _ ((m.fk.kernels.getD q (.identity none)).doc x)⟩) (fun a _ => by
        unfold FK.setNoise
        simp only [set_getD _ _ _ _ _ hil]
        by_cases e : a = i
        · simp only [if_pos e]
          exact ⟨by rw [e], hasDerivAt_id' _⟩
        · simp only [if_neg e]
          exact ⟨trivial, hasDerivAt_const _ _⟩) r s hr hs
  refine ⟨key.1, key.2.congr_deriv ?_⟩
  have hz : ∀ q, m.skiAt q (fun _ => 0) r s = 0 := fun q => by simp [LLGP.skiAt, skiKernel]
  simp [hz]

theorem probe_noise (h : m.OK P) (fs : ℕ → List (ℝ → ℝ)) {i : ℕ} (hi : i < m.fk.D) :
    ∃ f, m.Along m.fk.extraOf (m.fk.setNoise i) (m.fk.noise.getD i 0) f ∧ ∀ z, (m.probeGrad fs z).noise.getD i 0 = m.probeAt z f :=
  let ⟨f, h1, h2⟩ := param_noise h fs hi
  ⟨f, h1, fun _ => h2 _⟩

theorem avg_noise (h : m.OK P) (hN : 0 < m.nIt) (hp : (m.fk.skiMat m.axesOf m.fk.extraOf m.gp.Xs).PosDef) (fs : ℕ → List (ℝ → ℝ)) {i : ℕ} (hi : i < m.fk.D) :
    HasDerivAt (fun u => (m.fk.setNoise i u).skiLogLik m.axesOf m.fk.extraOf m.gp.Xs m.gp.Ys)
      ((∑ z, (m.probeGrad fs z).noise.getD i 0) / 2 ^ (m.nIt * m.n)) (m.fk.noise.getD i 0) := by
  obtain ⟨f, hf', he⟩ := probe_noise h fs hi
  simp only [he]
  exact avg_correct hN _ hp _ _ f hf'

/-! ### the gradients stored by an update -/

theorem derivative_probe (h : m.OK P) (hN : 0 < m.nIt) {sv : Solvers} (hs : sv.Fit) {e : Env} (he : e.Works) {K : MatObj} {A : ℕ → ℕ → ℝ} (hK : SquareOp K m.n A)
    (hx : ExactSolves sv K m.n A m.tol) (z : Fin m.nIt → Fin m.n → Bool) (hz : e.z = tableBits z) {kd : List MatObj × StochDeriv × Option Metrics}
    (ha : approxFirst sv e m K = .ok kd) (dK : MatObj) (B : ℕ → ℕ → ℝ) (hB : SquareOp dK m.n B) :
    kd.2.1.derivative dK = .ok (probeValue m.n m.nIt (fnMatrix m.n m.n A) (toVec m.n m.y) z B) := by
  unfold approxFirst at ha
  split_ifs at ha
  simp only [bind_ok, pure_ok] at ha
  obtain ⟨vals, -, ks, -, d, h1, h2⟩ := ha
  cases h2
  obtain ⟨d', x', e1, e2⟩ := estimate_value sv hs (m.service e) hN m.metrics hK hB (y_length h) (he _) hx z
  rw [hz] at h1
  have := e1.symm.trans h1
  cases this
  exact e2

end

/-! ### nothing after the gradient is stored changes it -/

/-- `x` changes no stored gradient -/
def KeepsGrad {α : Type} (x : PyM α) : Prop := ∀ w j, ((x w).2.heap j).map LLGP.grad = (w.heap j).map LLGP.grad

theorem KeepsGrad.bind {α β : Type} {x : PyM α} {f : α → PyM β} (h1 : KeepsGrad x) (h2 : ∀ a, KeepsGrad (f a)) : KeepsGrad (x >>= f) := by
  intro w j
  rw [py_bind]
  have := h1 w j
  rcases h : x w with ⟨r, w'⟩
  rw [h] at this
  cases r with
  | ok a => exact (h2 a w' j).trans this
  | error e => exact this

theorem KeepsGrad.of_snd {α : Type} {x : PyM α} (h : ∀ w, ∃ c, (x w).2 = { w with caches := c }) : KeepsGrad x := by
  intro w j
  obtain ⟨c, hc⟩ := h w
  rw [hc]

theorem KeepsGrad.pure {α : Type} (a : α) : KeepsGrad (pure a : PyM α) := fun _ _ => rfl
theorem KeepsGrad.lift {α : Type} (x : Except PyErr α) : KeepsGrad (PyM.lift x) := fun _ _ => rfl
theorem KeepsGrad.checkpoint (e : Env) (k : ℕ) : KeepsGrad (checkpoint e k) := fun _ _ => rfl
theorem KeepsGrad.self (i : ℕ) : KeepsGrad (self i) := fun _ _ => rfl

theorem KeepsGrad.cached {α : Type} (u : Bool) (get : Caches → Option (ℕ × α)) (set : Option (ℕ × α) → Caches → Caches) (compute : LLGP → Except PyErr α) (i : ℕ) :
    KeepsGrad (cachedCall u get set compute i) := KeepsGrad.of_snd fun w => cached_snd u get set compute i w

theorem KeepsGrad.withMetrics (i : ℕ) (f : LLGP → Option Metrics) : KeepsGrad (modifySelf i fun m => m.withMetrics (f m)) := by
  intro w j
  show (if j = i then (w.heap i).map _ else w.heap j).map LLGP.grad = _
  by_cases e : j = i
  · rw [if_pos e, e]
    cases w.heap i with
    | none => rfl
    | some m => rfl
  · rw [if_neg e]

theorem KeepsGrad.record (u : Bool) (e : Env) (i : ℕ) : KeepsGrad (recordMetrics u e i) := by
  unfold recordMetrics
  refine (KeepsGrad.self i).bind fun m => ?_
  cases m.metrics with
  | none => exact KeepsGrad.pure _
  | some x =>
    exact (KeepsGrad.lift _).bind fun _ => (KeepsGrad.cached u _ _ _ i).bind fun _ => (KeepsGrad.lift _).bind fun _ => (KeepsGrad.lift _).bind fun _ => (KeepsGrad.lift _).bind fun _ =>
      (KeepsGrad.withMetrics i _).bind fun _ => (KeepsGrad.checkpoint e 5).bind fun _ => ((KeepsGrad.cached u _ _ _ i).bind fun _ => (KeepsGrad.self i).bind fun _ => KeepsGrad.lift _).bind fun _ =>
        KeepsGrad.withMetrics i _

/-- the gradient that an update which completes has stored: that of the likelihood it built -/
theorem update_grad (sv : Solvers) (u : Bool) (e : Env) {i : ℕ} {w w' : World} {m : LLGP} (h : w.heap i = some m) (hok : parametersChanged u sv e i w = (.ok (), w')) :
    ∃ m' Kg kd grads G, w'.heap i = some m' ∧ genGridKernel m.fk m.dists m.interp m.lens = .ok Kg ∧ approxFirst sv e m Kg.1 = .ok kd ∧
      m.fk.evalKernelGradients (m.dists.map fun kd => (kd.1, .arr kd.2)) = .ok grads ∧
      m.fk.updateGradient (ApproxLMC.ops ⟨m.fk, m.y, m.lens, kd.1, Kg.1, kd.2.1, grads, m.interp⟩) = .ok G ∧ m'.grad = some G := by
  have hclear : clearCaches w = (.ok (), { w with caches := Caches.empty }) := rfl
  unfold parametersChanged at hok
  rw [py_bind, hclear] at hok
  simp only at hok
  rw [py_bind] at hok
  rcases replace_outcome sv e (w := { w with caches := Caches.empty }) (i := i) h with ⟨Kg, kd, grads, h1, h2, h3, -, h4⟩ | ⟨x, w1, h1, -⟩
  · rw [h4] at hok
    simp only at hok
    rw [py_bind, checkpoint_run] at hok
    by_cases i3 : e.interrupt = some 3
    · rw [if_pos i3] at hok; cases hok
    rw [if_neg i3] at hok
    simp only at hok
    rw [py_bind] at hok
    have hkd := Keeps.debug u e i (World.put { w with caches := Caches.empty } i (m.replaced Kg kd grads))
    rcases hdb : debugMessages u e i (World.put { w with caches := Caches.empty } i (m.replaced Kg kd grads)) with ⟨r, w1⟩
    rw [hdb] at hok hkd
    cases r with
    | error x => cases hok
    | ok a =>
      simp only at hok
      have hi := hkd.2 i
      rw [put_heap] at hi
      obtain ⟨m1, hm1, hc1⟩ : ∃ m1, w1.heap i = some m1 ∧ m1.core = (m.replaced Kg kd grads).core := by
        cases hh : w1.heap i with
        | none => simp only [hh] at hi; cases hi
        | some m1 => simp only [hh] at hi; exact ⟨m1, rfl, Option.some.inj hi⟩
      have hfk : m1.fk = m.fk := by
        have : m1.core.fk = (m.replaced Kg kd grads).core.fk := by rw [hc1]
        exact this
      have hker : m1.kernel = (m.replaced Kg kd grads).kernel := by
        have : m1.core.kernel = (m.replaced Kg kd grads).core.kernel := by rw [hc1]
        exact this
      have hst : storeGradient i w1 = match m.fk.updateGradient (ApproxLMC.ops ⟨m.fk, m.y, m.lens, kd.1, Kg.1, kd.2.1, grads, m.interp⟩) with
          | .ok G => (.ok (), w1.put i { m1 with grad := some G })
          | .error x => (.error x, w1) := by
        unfold storeGradient
        rw [py_bind, self_run hm1]
        simp only
        have : m1.theKernel = .ok ⟨⟨m.fk, m.y, m.lens, kd.1, Kg.1, kd.2.1, grads, m.interp⟩, Kg.2⟩ := by
          unfold LLGP.theKernel
          rw [hker]
          rfl
        rw [py_bind, lift_run, this]
        simp only
        rw [py_bind, lift_run, hfk]
        cases m.fk.updateGradient (ApproxLMC.ops ⟨m.fk, m.y, m.lens, kd.1, Kg.1, kd.2.1, grads, m.interp⟩) with
        | error x => rfl
        | ok G =>
          simp only
          rw [modify_run hm1, hfk]
      rw [py_bind, hst] at hok
      cases hG : m.fk.updateGradient (ApproxLMC.ops ⟨m.fk, m.y, m.lens, kd.1, Kg.1, kd.2.1, grads, m.interp⟩) with
      | error x => rw [hG] at hok; cases hok
      | ok G =>
        rw [hG] at hok
        simp only at hok
        have hk := ((KeepsGrad.checkpoint e 4).bind fun _ => KeepsGrad.record u e i) (w1.put i { m1 with grad := some G }) i
        rw [put_heap] at hk
        have hk' : (w'.heap i).map LLGP.grad = some (some G) := by
          rw [hok] at hk
          exact hk
        cases hw' : w'.heap i with
        | none => rw [hw'] at hk'; cases hk'
        | some m' =>
          rw [hw'] at hk'
          exact ⟨m', Kg, kd, grads, G, rfl, h1, h2, h3, hG, Option.some.inj hk'⟩
  · rw [h1] at hok; cases hok

end Verif
