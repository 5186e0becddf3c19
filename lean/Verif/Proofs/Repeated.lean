import Verif.Spec.Repeated
import Verif.Proofs.Reordered
import Verif.Props.Grids

/-! Lemmas for C109: repeated measurements. -/

namespace Verif

open Matrix

/-- If every row is repeated `κ` times, with `κ` times the noise, solutions spread evenly over the repetitions. -/
theorem repeat_solve {n n' : ℕ} (f : Fin n' → Fin n) (κ : Fin n → ℝ) (hκ : ∀ i, κ i ≠ 0) (hf : ∀ i, ((Finset.univ.filter fun j => f j = i).card : ℝ) = κ i)
    {C : Fin n → Fin n → ℝ} {N : Fin n → ℝ} {K : Matrix (Fin n) (Fin n) ℝ} {K' : Matrix (Fin n') (Fin n') ℝ} (hK : ∀ i j, K i j = C i j + if i = j then N i else 0)
    (hK' : ∀ i j, K' i j = C (f i) (f j) + if i = j then κ (f i) * N (f i) else 0) (hd : IsUnit K.det) (hd' : IsUnit K'.det) {u v : Fin n → ℝ} {u' v' : Fin n' → ℝ}
    (hu : ∀ j, u' j = u (f j)) (hv : ∀ i, ∑ j ∈ Finset.univ.filter (fun j => f j = i), v' j = κ i * v i) : u' ⬝ᵥ K'⁻¹ *ᵥ v' = u ⬝ᵥ K⁻¹ *ᵥ v := by
  set w := u ᵥ* K⁻¹ with hw
  have hwK : w ᵥ* K = u := by rw [hw, Matrix.vecMul_vecMul, Matrix.nonsing_inv_mul _ hd, Matrix.vecMul_one]
  have fib : ∀ g : Fin n → ℝ, ∀ h : Fin n' → ℝ, ∑ j, g (f j) * h j = ∑ i, g i * ∑ j ∈ Finset.univ.filter (fun j => f j = i), h j := by
    intro g h
    rw [← Finset.sum_fiberwise_of_maps_to (s := Finset.univ) (t := Finset.univ) (g := f) (fun _ _ => Finset.mem_univ _)]
    refine Finset.sum_congr rfl fun i _ => ?_
    rw [Finset.mul_sum]
    refine Finset.sum_congr rfl fun j hj => ?_
    rw [(Finset.mem_filter.1 hj).2]
  set w' : Fin n' → ℝ := fun j => w (f j) / κ (f j) with hw'
  have hw1 : w' ᵥ* K' = u' := by
    funext l
    show ∑ j, w' j * K' j l = u' l
    have e : ∀ j, w' j * K' j l = w (f j) / κ (f j) * C (f j) (f l) * 1 + if j = l then w (f l) * N (f l) else 0 := by
      intro j
      rw [hK' j l, mul_add, hw', mul_one]
      congr 1
      by_cases e : j = l
      · subst e
        rw [if_pos rfl, if_pos rfl]
        field_simp [hκ (f j)]
      · rw [if_neg e, if_neg e, mul_zero]
    rw [Finset.sum_congr rfl fun j _ => e j, Finset.sum_add_distrib, Finset.sum_ite_eq' Finset.univ l, if_pos (Finset.mem_univ _),
      fib (fun i => w i / κ i * C i (f l)) fun _ => 1, hu l, ← congrFun hwK (f l)]
    show _ = ∑ i, w i * K i (f l)
    have e2 : ∀ i, w i * K i (f l) = w i * C i (f l) + if i = f l then w (f l) * N (f l) else 0 := by
      intro i
      rw [hK i (f l), mul_add]
      congr 1
      by_cases e : i = f l
      · rw [if_pos e, if_pos e, e]
      · rw [if_neg e, if_neg e, mul_zero]
    rw [Finset.sum_congr rfl fun i _ => e2 i, Finset.sum_add_distrib, Finset.sum_ite_eq' Finset.univ (f l), if_pos (Finset.mem_univ _)]
    congr 1
    refine Finset.sum_congr rfl fun i _ => ?_
    rw [Finset.sum_const, nsmul_eq_mul, mul_one, hf i]
    field_simp [hκ i]
  have hw2 : u' ᵥ* K'⁻¹ = w' := by rw [← hw1, Matrix.vecMul_vecMul, Matrix.mul_nonsing_inv _ hd', Matrix.vecMul_one]
  rw [Matrix.dotProduct_mulVec, Matrix.dotProduct_mulVec, hw2, ← hw]
  show ∑ j, w' j * v' j = ∑ i, w i * v i
  rw [hw', fib (fun i => w i / κ i) v']
  refine Finset.sum_congr rfl fun i _ => ?_
  rw [hv i]
  field_simp [hκ i]

/-- two models with the same grids where every observation of the first was measured `k d` times for the second, with `k d` times the noise -/
structure Replicated (P : ℕ) (k : ℕ → ℕ) (m m' : LLGP) : Prop where
  ok : m.OK P
  ok' : m'.OK P
  fk : m.fk.NoiseTimes k m'.fk
  mode : m'.prediction = m.prediction
  axes : m'.axesOf = m.axesOf
  pos : ∀ d < m.fk.D, 0 < k d
  rows : ∃ f : Fin (m'.gp.Xs.map Arr2.rows).sum → Fin (m.gp.Xs.map Arr2.rows).sum,
    (∀ j : Fin (m'.gp.Xs.map Arr2.rows).sum, ownerOf (m'.gp.Xs.map Arr2.rows) j = ownerOf (m.gp.Xs.map Arr2.rows) (f j)) ∧
    (∀ j : Fin (m'.gp.Xs.map Arr2.rows).sum, ∀ c < P, rowPoint m'.gp.Xs j c = rowPoint m.gp.Xs (f j) c) ∧
    ∀ i, (Finset.univ.filter fun j => f j = i).card = k (ownerOf (m.gp.Xs.map Arr2.rows) i) ∧
      ∑ j ∈ Finset.univ.filter (fun j => f j = i), m'.gp.Ys.flatten.getD j 0 = k (ownerOf (m.gp.Xs.map Arr2.rows) i) * m.gp.Ys.flatten.getD i 0

namespace Replicated

variable {P : ℕ} {k : ℕ → ℕ} {m m' : LLGP} (R : Replicated P k m m')
include R

theorem cov : m'.fk.cov = m.fk.cov := by rw [R.fk.same]; rfl
theorem skiCov : m'.fk.skiCov = m.fk.skiCov := by rw [R.fk.same]; rfl
theorem extra : m'.fk.extraOf = m.fk.extraOf := by rw [R.fk.same]; rfl
theorem D : m'.fk.D = m.fk.D := by rw [R.fk.same]
theorem dims : m'.fk.activeDims = m.fk.activeDims := by rw [R.fk.same]
theorem gridCov : m'.fk.gridCov = m.fk.gridCov := by rw [R.fk.same]; rfl

theorem owner_lt (r : Fin (m.gp.Xs.map Arr2.rows).sum) : ownerOf (m.gp.Xs.map Arr2.rows) r < m.fk.D := by
  have := ownerOf_lt _ _ r.2
  rwa [List.length_map, R.ok.data.inputs.len] at this

theorem sound (hs : m.fk.Sound) : m'.fk.Sound := by
  obtain ⟨h1, h2, h3, h4⟩ := hs
  rw [R.fk.same]
  refine ⟨h1, h2, h3, fun a ha => ?_⟩
  show 0 < m'.fk.noise.getD a 0
  rw [R.fk.noise a ha]
  exact mul_pos (by exact_mod_cast R.pos a ha) (h4 a ha)

/-- any covariance that depends on outputs and points only -/
theorem solve {C : ℕ → ℕ → (ℕ → ℝ) → (ℕ → ℝ) → ℝ} (hC : ∀ a b x x' z z', (∀ c < P, x c = x' c) → (∀ c < P, z c = z' c) → C a b x z = C a b x' z')
    {K : Matrix (Fin (m.gp.Xs.map Arr2.rows).sum) (Fin (m.gp.Xs.map Arr2.rows).sum) ℝ} {K' : Matrix (Fin (m'.gp.Xs.map Arr2.rows).sum) (Fin (m'.gp.Xs.map Arr2.rows).sum) ℝ}
    (hK : ∀ i j, K i j = C (ownerOf (m.gp.Xs.map Arr2.rows) i) (ownerOf (m.gp.Xs.map Arr2.rows) j) (rowPoint m.gp.Xs i) (rowPoint m.gp.Xs j) +
      if (i : ℕ) = j then m.fk.noise.getD (ownerOf (m.gp.Xs.map Arr2.rows) i) 0 else 0)
    (hK' : ∀ i j, K' i j = C (ownerOf (m'.gp.Xs.map Arr2.rows) i) (ownerOf (m'.gp.Xs.map Arr2.rows) j) (rowPoint m'.gp.Xs i) (rowPoint m'.gp.Xs j) +
      if (i : ℕ) = j then m'.fk.noise.getD (ownerOf (m'.gp.Xs.map Arr2.rows) i) 0 else 0)
    (hd : K.PosDef) (hd' : K'.PosDef) {φ : ℕ → (ℕ → ℝ) → ℝ} (hφ : ∀ a x x', (∀ c < P, x c = x' c) → φ a x = φ a x') :
    ((fun j : Fin (m'.gp.Xs.map Arr2.rows).sum => φ (ownerOf (m'.gp.Xs.map Arr2.rows) j) (rowPoint m'.gp.Xs j)) ⬝ᵥ
        K'⁻¹ *ᵥ (fun j : Fin (m'.gp.Xs.map Arr2.rows).sum => φ (ownerOf (m'.gp.Xs.map Arr2.rows) j) (rowPoint m'.gp.Xs j)) =
      (fun j : Fin (m.gp.Xs.map Arr2.rows).sum => φ (ownerOf (m.gp.Xs.map Arr2.rows) j) (rowPoint m.gp.Xs j)) ⬝ᵥ
        K⁻¹ *ᵥ (fun j : Fin (m.gp.Xs.map Arr2.rows).sum => φ (ownerOf (m.gp.Xs.map Arr2.rows) j) (rowPoint m.gp.Xs j))) ∧
    (fun j : Fin (m'.gp.Xs.map Arr2.rows).sum => φ (ownerOf (m'.gp.Xs.map Arr2.rows) j) (rowPoint m'.gp.Xs j)) ⬝ᵥ
        K'⁻¹ *ᵥ toVec (m'.gp.Xs.map Arr2.rows).sum m'.gp.Ys.flatten =
      (fun j : Fin (m.gp.Xs.map Arr2.rows).sum => φ (ownerOf (m.gp.Xs.map Arr2.rows) j) (rowPoint m.gp.Xs j)) ⬝ᵥ
        K⁻¹ *ᵥ toVec (m.gp.Xs.map Arr2.rows).sum m.gp.Ys.flatten := by
  obtain ⟨f, ho, hp, hi⟩ := R.rows
  have hk : ∀ i : Fin (m.gp.Xs.map Arr2.rows).sum, (k (ownerOf (m.gp.Xs.map Arr2.rows) i) : ℝ) ≠ 0 := fun i =>
    by exact_mod_cast (R.pos _ (R.owner_lt i)).ne'
  have key := fun {v v'} => repeat_solve f (fun i => (k (ownerOf (m.gp.Xs.map Arr2.rows) i) : ℝ)) hk (fun i => by exact_mod_cast (hi i).1)
    (C := fun i j => C (ownerOf (m.gp.Xs.map Arr2.rows) i) (ownerOf (m.gp.Xs.map Arr2.rows) j) (rowPoint m.gp.Xs i) (rowPoint m.gp.Xs j))
    (N := fun i => m.fk.noise.getD (ownerOf (m.gp.Xs.map Arr2.rows) i) 0) (K := K) (K' := K') (fun i j => by rw [hK i j]; simp only [Fin.ext_iff])
    (fun i j => by
      rw [hK' i j, hC _ _ _ _ _ _ (hp i) (hp j), ho i, ho j, R.fk.noise _ (R.owner_lt (f i))]
      simp only [Fin.ext_iff])
    ((Matrix.isUnit_iff_isUnit_det _).1 hd.isUnit) ((Matrix.isUnit_iff_isUnit_det _).1 hd'.isUnit)
    (u := fun j => φ (ownerOf (m.gp.Xs.map Arr2.rows) j) (rowPoint m.gp.Xs j)) (u' := fun j => φ (ownerOf (m'.gp.Xs.map Arr2.rows) j) (rowPoint m'.gp.Xs j)) (v := v) (v' := v')
    (fun j => by rw [ho j, hφ _ _ _ (hp j)])
  refine ⟨key fun i => ?_, key fun i => (hi i).2⟩
  rw [← (hi i).1, ← nsmul_eq_mul, ← Finset.sum_const]
  refine Finset.sum_congr rfl fun j hj => ?_
  rw [ho j, hφ _ _ _ (hp j), (Finset.mem_filter.1 hj).2]

theorem condVar (hs : m.fk.Sound) (d : ℕ) (x : ℕ → ℝ) : m'.fk.crossCov m'.gp.Xs d x ⬝ᵥ (m'.fk.covMat m'.gp.Xs)⁻¹.mulVec (m'.fk.crossCov m'.gp.Xs d x) =
    m.fk.crossCov m.gp.Xs d x ⬝ᵥ (m.fk.covMat m.gp.Xs)⁻¹.mulVec (m.fk.crossCov m.gp.Xs d x) := by
  have hs' := R.sound hs
  have := (R.solve (C := m.fk.cov) (K := m.fk.covMat m.gp.Xs) (K' := m'.fk.covMat m'.gp.Xs) (fun a b x x' z z' h1 h2 => cov_congr R.ok.ready h1 h2) (fun i j => rfl)
    (fun i j => by rw [← R.cov]; rfl) (covMat_posDef R.ok.ready.wf R.ok.data.inputs.len hs.kernels hs.kappa hs.noise)
    (covMat_posDef R.ok'.ready.wf R.ok'.data.inputs.len hs'.kernels hs'.kappa hs'.noise) (φ := fun a z => m.fk.cov d a x z)
    (fun a z z' h => cov_congr R.ok.ready (fun _ _ => rfl) h)).1
  rw [← R.cov] at this
  simp only [R.cov] at this
  unfold FK.crossCov
  rw [R.cov]
  exact this

theorem ski {φ : ℕ → (ℕ → ℝ) → ℝ} (hs : m.fk.Sound) (hn : ∀ ad ∈ m.fk.activeDims.map Prod.fst, ad.Nodup) (hφ : ∀ a x x', (∀ c < P, x c = x' c) → φ a x = φ a x') :
    ((fun j : Fin (m'.gp.Xs.map Arr2.rows).sum => φ (ownerOf (m'.gp.Xs.map Arr2.rows) j) (rowPoint m'.gp.Xs j)) ⬝ᵥ
        (m'.fk.skiMat m'.axesOf m'.fk.extraOf m'.gp.Xs)⁻¹ *ᵥ (fun j : Fin (m'.gp.Xs.map Arr2.rows).sum => φ (ownerOf (m'.gp.Xs.map Arr2.rows) j) (rowPoint m'.gp.Xs j)) =
      (fun j : Fin (m.gp.Xs.map Arr2.rows).sum => φ (ownerOf (m.gp.Xs.map Arr2.rows) j) (rowPoint m.gp.Xs j)) ⬝ᵥ
        (m.fk.skiMat m.axesOf m.fk.extraOf m.gp.Xs)⁻¹ *ᵥ (fun j : Fin (m.gp.Xs.map Arr2.rows).sum => φ (ownerOf (m.gp.Xs.map Arr2.rows) j) (rowPoint m.gp.Xs j))) ∧
    (fun j : Fin (m'.gp.Xs.map Arr2.rows).sum => φ (ownerOf (m'.gp.Xs.map Arr2.rows) j) (rowPoint m'.gp.Xs j)) ⬝ᵥ
        (m'.fk.skiMat m'.axesOf m'.fk.extraOf m'.gp.Xs)⁻¹ *ᵥ toVec (m'.gp.Xs.map Arr2.rows).sum m'.gp.Ys.flatten =
      (fun j : Fin (m.gp.Xs.map Arr2.rows).sum => φ (ownerOf (m.gp.Xs.map Arr2.rows) j) (rowPoint m.gp.Xs j)) ⬝ᵥ
        (m.fk.skiMat m.axesOf m.fk.extraOf m.gp.Xs)⁻¹ *ᵥ toVec (m.gp.Xs.map Arr2.rows).sum m.gp.Ys.flatten :=
  R.solve (C := m.fk.skiCov m.axesOf m.fk.extraOf) (K := m.fk.skiMat m.axesOf m.fk.extraOf m.gp.Xs) (K' := m'.fk.skiMat m'.axesOf m'.fk.extraOf m'.gp.Xs)
    (fun a b x x' z z' h1 h2 => skiCov_eq R.ok h1 h2 _ _ _) (fun i j => rfl) (fun i j => by rw [← R.skiCov, ← R.axes, ← R.extra]; rfl) (R.ok.ski_posDef hs hn)
    (R.ok'.ski_posDef (R.sound hs) (by rw [R.dims]; exact hn)) hφ

theorem flyVar (hs : m.fk.Sound) (hn : ∀ ad ∈ m.fk.activeDims.map Prod.fst, ad.Nodup) (d : ℕ) (x : ℕ → ℝ) :
    m'.fk.crossCov m'.gp.Xs d x ⬝ᵥ (m'.fk.skiMat m'.axesOf m'.fk.extraOf m'.gp.Xs)⁻¹.mulVec (m'.fk.crossCov m'.gp.Xs d x) =
      m.fk.crossCov m.gp.Xs d x ⬝ᵥ (m.fk.skiMat m.axesOf m.fk.extraOf m.gp.Xs)⁻¹.mulVec (m.fk.crossCov m.gp.Xs d x) := by
  have := (R.ski (φ := fun a z => m.fk.cov d a x z) hs hn (fun a z z' h => cov_congr R.ok.ready (fun _ _ => rfl) h)).1
  unfold FK.crossCov
  rw [R.cov]
  exact this

theorem gridVar (hs : m.fk.Sound) (hn : ∀ ad ∈ m.fk.activeDims.map Prod.fst, ad.Nodup) {g : List ℕ × List ℕ} (hg : g ∈ m.fk.activeDims) (d p : ℕ) :
    m'.fk.gridExplained m'.axesOf m'.fk.extraOf g m'.gp.Xs d p = m.fk.gridExplained m.axesOf m.fk.extraOf g m.gp.Xs d p := by
  have := (R.ski (φ := fun a z => ∑ q ∈ Finset.range (gridSize (m.axesOf g.1)), (m.fk.gridCov (m.axesOf g.1) g.2 d a p q + if d = a ∧ p = q then m.fk.extraOf g else 0) *
    gridWeight (m.axesOf g.1) (coords g.1 z) q) hs hn (fun a z z' h => Finset.sum_congr rfl fun q _ => by rw [coords_eq R.ok hg h])).1
  unfold FK.gridExplained FK.gridToData
  rw [R.axes, R.extra, R.gridCov]
  rw [R.axes, R.extra] at this
  exact this

theorem mean (hs : m.fk.Sound) (hn : ∀ ad ∈ m.fk.activeDims.map Prod.fst, ad.Nodup) (d : ℕ) (x : ℕ → ℝ) :
    m'.fk.skiMean m'.axesOf m'.fk.extraOf m'.gp.Xs m'.gp.Ys d x = m.fk.skiMean m.axesOf m.fk.extraOf m.gp.Xs m.gp.Ys d x := by
  have := (R.ski (φ := fun a z => m.fk.skiCov m.axesOf m.fk.extraOf d a x z) hs hn (fun a z z' h => skiCov_eq R.ok (fun _ _ => rfl) h _ _ _)).2
  unfold FK.skiMean FK.skiCross
  rw [R.axes, R.extra, R.skiCov]
  rw [R.axes, R.extra] at this
  exact this

theorem priorVar {d : ℕ} (hd : d < m.fk.D) (x : ℕ → ℝ) : m'.fk.priorVar d x = m.fk.priorVar d x + (k d - 1) * m.fk.noise.getD d 0 := by
  unfold FK.priorVar
  rw [R.cov, R.fk.noise d hd]
  ring

/-- the parts of the variances that the observations explain are the same -/
theorem explained {sv : Solvers} (hs : sv.Fit) (hx : sv.Exact) {κ κ' : LLKernel} (hc : m.Current sv κ) (hc' : m'.Current sv κ') (hso : m.fk.Sound)
    (hn : ∀ ad ∈ m.fk.activeDims.map Prod.fst, ad.Nodup) {e e' : Env} (he : e.Works) (he' : e'.Works) {Xs : List (Arr2 ℝ)} (hX : InputsOK m.fk.D P Xs) :
    m'.explained sv e' Xs (m'.queryWs Xs) = m.explained sv e Xs (m.queryWs Xs) ∧ ∀ ex, m.explained sv e Xs (m.queryWs Xs) = .ok ex → ex.length = (Xs.map Arr2.rows).sum := by
  have hso' := R.sound hso
  have hn' : ∀ ad ∈ m'.fk.activeDims.map Prod.fst, ad.Nodup := by rw [R.dims]; exact hn
  have hX' : InputsOK m'.fk.D P Xs := by rw [R.D]; exact hX
  have hxs := exact_of_current hs hx R.ok hc hso hn
  have hxs' := exact_of_current hs hx R.ok' hc' hso' hn'
  have hpd := covMat_posDef R.ok.ready.wf R.ok.data.inputs.len hso.kernels hso.kappa hso.noise
  have hpd' := covMat_posDef R.ok'.ready.wf R.ok'.data.inputs.len hso'.kernels hso'.kappa hso'.noise
  cases hm : m.prediction with
  | exact =>
    rw [(explained_exact R.ok hm hX sv e _).1 hpd, (explained_exact R.ok' (R.mode.trans hm) hX' sv e' _).1 hpd']
    refine ⟨congrArg Except.ok (vmk_congr fun r _ => ?_), fun ex h => by rw [← Except.ok.inj h, vmk_length]⟩
    exact R.condVar hso _ _
  | onTheFly =>
    by_cases h0 : 0 < (Xs.map Arr2.rows).sum
    · rw [explained_fly_exact hs R.ok hm hc (hxs _) he hX h0, explained_fly_exact hs R.ok' (R.mode.trans hm) hc' (hxs' _) he' hX' h0]
      refine ⟨congrArg Except.ok (vmk_congr fun r _ => ?_), fun ex h => by rw [← Except.ok.inj h, vmk_length]⟩
      exact R.flyVar hso hn _ _
    · have h0 : (Xs.map Arr2.rows).sum = 0 := by omega
      rw [explained_fly_none R.ok hm hc hX (he 0) h0, explained_fly_none R.ok' (R.mode.trans hm) hc' hX' (he' 0) h0]
      exact ⟨rfl, fun ex h => by cases h⟩
  | precompute =>
    have hm' := R.mode.trans hm
    obtain ⟨f1, f2⟩ := explained_pre_fails (sv := sv) R.ok hm e Xs (m.queryWs Xs)
    obtain ⟨f1', f2'⟩ := explained_pre_fails (sv := sv) R.ok' hm' e' Xs (m'.queryWs Xs)
    by_cases hl : m.fk.activeDims.length = 1
    · obtain ⟨g, hg⟩ := List.length_eq_one_iff.1 hl
      by_cases hg1 : g.1 = List.range P
      · rw [explained_pre_exact hs R.ok hm hc (hxs _) he hX hg hg1, explained_pre_exact hs R.ok' hm' hc' (hxs' _) he' hX' (by rw [R.dims]; exact hg) hg1]
        refine ⟨congrArg Except.ok (vmk_congr fun r _ => ?_), fun ex h => by rw [← Except.ok.inj h, vmk_length]⟩
        have h := R.gridVar hso hn (show g ∈ m.fk.activeDims by rw [hg]; simp)
        rw [R.axes] at h ⊢
        simp only [h]
      · rw [f2 g hg hg1, f2' g (by rw [R.dims]; exact hg) hg1]
        exact ⟨rfl, fun ex h => by cases h⟩
    · rw [f1 hl, f1' (by rw [R.dims]; exact hl)]
      exact ⟨rfl, fun ex h => by cases h⟩

theorem raw {sv : Solvers} (hs : sv.Fit) (hx : sv.Exact) {κ κ' : LLKernel} (hc : m.Current sv κ) (hc' : m'.Current sv κ') (hso : m.fk.Sound)
    (hn : ∀ ad ∈ m.fk.activeDims.map Prod.fst, ad.Nodup) {e e' : Env} (he : e.Works) (he' : e'.Works) {Xs : List (Arr2 ℝ)} (hX : InputsOK m.fk.D P Xs) :
    (∃ x, m.rawPredict sv e Xs = .error x ∧ m'.rawPredict sv e' Xs = .error x) ∨
    ∃ p p', m.rawPredict sv e Xs = .ok p ∧ m'.rawPredict sv e' Xs = .ok p' ∧ PredictionFits p (Xs.map Arr2.rows) ∧ PredictionFits p' (Xs.map Arr2.rows) ∧
      p.UpToNoise m.fk.D (Xs.map Arr2.rows) (fun d => (k d - 1) * m.fk.noise.getD d 0) p' := by
  have hso' := R.sound hso
  have hn' : ∀ ad ∈ m'.fk.activeDims.map Prod.fst, ad.Nodup := by rw [R.dims]; exact hn
  have hX' : InputsOK m'.fk.D P Xs := by rw [R.D]; exact hX
  have hxs := exact_of_current hs hx R.ok hc hso hn
  have hxs' := exact_of_current hs hx R.ok' hc' hso' hn'
  obtain ⟨h1, h2⟩ := R.explained hs hx hc hc' hso hn he he' hX
  cases h3 : m.explained sv e Xs (m.queryWs Xs) with
  | error x => exact .inl ⟨x, raw_explained_error hs R.ok hc hX e hso.plain h3, raw_explained_error hs R.ok' hc' hX' e' hso'.plain (h1.trans h3)⟩
  | ok ex =>
    obtain ⟨p, p1, p2, p3⟩ := raw_ok hs R.ok hc hX hso.plain e h3 (h2 ex h3)
    obtain ⟨p', q1, q2, q3⟩ := raw_ok hs R.ok' hc' hX' hso'.plain e' (h1.trans h3) (h2 ex h3)
    refine .inr ⟨p, p', p1, q1, p2, q2, fun d hd i hi => ?_⟩
    obtain ⟨a1, a2⟩ := p3.entry d hd i hi
    obtain ⟨b1, b2⟩ := q3.entry d (by rw [R.D]; exact hd) i hi
    have hk : (0 : ℝ) ≤ (k d - 1) * m.fk.noise.getD d 0 := by
      have : (1 : ℝ) ≤ k d := by exact_mod_cast R.pos d hd
      exact mul_nonneg (by linarith) (hso.noise d hd).le
    rw [a1, a2, b1, b2, meanWith_exact R.ok hc (hxs _), meanWith_exact R.ok' hc' (hxs' _), R.mean hso hn, R.priorVar hd]
    generalize m.fk.priorVar d (pointOf Xs d i) = v
    generalize ex.getD (offset (Xs.map Arr2.rows) d + i) 0 = w
    show m.fk.skiMean m.axesOf m.fk.extraOf m.gp.Xs m.gp.Ys d (pointOf Xs d i) = _ ∧ _ ≤ _ ∧ _ ≤ _ + (k d - 1) * m.fk.noise.getD d 0 ∧ (_ → _ = _ + (k d - 1) * m.fk.noise.getD d 0)
    generalize (k d - 1) * m.fk.noise.getD d 0 = n at hk ⊢
    refine ⟨rfl, max_le_max le_rfl (by linarith), ?_, fun h => ?_⟩
    · refine max_le (by positivity) ?_
      have := le_max_right 0 (v - w)
      linarith
    · have h : 0 < v - w := by
        by_contra h'
        rw [max_eq_left (not_lt.1 h')] at h
        exact lt_irrefl _ h
      rw [max_eq_right h.le, max_eq_right (by linarith)]
      ring

end Replicated

end Verif
