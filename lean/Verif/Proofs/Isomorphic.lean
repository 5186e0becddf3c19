import Verif.Proofs.Values
import Verif.Props.Reordered

/-! Models that state the same problem with other names for the outputs and other coordinates for the inputs make the same predictions. -/

namespace Verif

open Matrix

/-- `x'` is the point `x` in other coordinates -/
def Corr (P : ℕ) (φ : ℕ → ℝ → ℝ) (x x' : ℕ → ℝ) : Prop := ∀ c < P, x' c = φ c (x c)

/-- `m'` states the problem of `m` with output `a` called `π a`, points written as `C` says, the observations in another order, and group `ad` of dimensions called `γ ad`,
with the points of its grid in another order -/
structure Isomorphic (P : ℕ) (π : ℕ → ℕ) (C : (ℕ → ℝ) → (ℕ → ℝ) → Prop) (γ : List ℕ → List ℕ) (τ : List ℕ → ℕ → ℕ) (m m' : LLGP) : Prop where
  ok : m.OK P
  ok' : m'.OK P
  mode : m'.prediction = m.prediction
  D : m'.fk.D = m.fk.D
  Q : m'.fk.Q = m.fk.Q
  dims : m'.fk.activeDims.Perm (m.fk.activeDims.map fun g => (γ g.1, g.2))
  full : ∀ g ∈ m.fk.activeDims, γ g.1 = List.range P ↔ g.1 = List.range P
  once : ∀ g ∈ m.fk.activeDims, g.1.Nodup → (γ g.1).Nodup
  maps : ∀ a < m.fk.D, π a < m.fk.D
  inj : ∀ a < m.fk.D, ∀ b < m.fk.D, π a = π b → a = b
  B : ∀ q < m.fk.Q, ∀ a < m.fk.D, ∀ b < m.fk.D, m'.fk.B q (π a) (π b) = m.fk.B q a b
  noise : ∀ a < m.fk.D, m'.fk.noise.getD (π a) 0 = m.fk.noise.getD a 0
  extra : ∀ g ∈ m.fk.activeDims, m'.fk.extraOf (γ g.1, g.2) = m.fk.extraOf g
  size : ∀ g ∈ m.fk.activeDims, gridSize (m'.axesOf (γ g.1)) = gridSize (m.axesOf g.1)
  order : ∀ g ∈ m.fk.activeDims, Set.BijOn (τ g.1) (Finset.range (gridSize (m.axesOf g.1))) (Finset.range (gridSize (m.axesOf g.1)))
  weight : ∀ g ∈ m.fk.activeDims, ∀ x x', C x x' → ∀ p < gridSize (m.axesOf g.1),
    gridWeight (m'.axesOf (γ g.1)) (coords (γ g.1) x') (τ g.1 p) = gridWeight (m.axesOf g.1) (coords g.1 x) p
  grid : ∀ g ∈ m.fk.activeDims, ∀ k ∈ g.2, ∀ p < gridSize (m.axesOf g.1), ∀ q < gridSize (m.axesOf g.1),
    (m'.fk.kernels.getD k (.identity none)).doc (gridDistance (m'.axesOf (γ g.1)) (τ g.1 p) (τ g.1 q)) =
    (m.fk.kernels.getD k (.identity none)).doc (gridDistance (m.axesOf g.1) p q)
  points : ∀ q < m.fk.Q, ∀ x x' z z', C x x' → C z z' → (m'.fk.kernels.getD q (.identity none)).doc (distOn (m'.fk.kdims q) x' z') =
    (m.fk.kernels.getD q (.identity none)).doc (distOn (m.fk.kdims q) x z)
  norm : ∀ a < m.fk.D, normOf m'.gp (π a) = normOf m.gp a
  rows : ∃ σ : Fin (m.gp.Xs.map Arr2.rows).sum ≃ Fin (m'.gp.Xs.map Arr2.rows).sum, ∀ r,
    ownerOf (m'.gp.Xs.map Arr2.rows) (σ r) = π (ownerOf (m.gp.Xs.map Arr2.rows) r) ∧ C (rowPoint m.gp.Xs r) (rowPoint m'.gp.Xs (σ r)) ∧
    m.gp.Ys.flatten.getD r 0 = m'.gp.Ys.flatten.getD (σ r) 0

theorem sum_reorder {n : ℕ} {t : ℕ → ℕ} (h : Set.BijOn t (Finset.range n) (Finset.range n)) (f : ℕ → ℝ) : ∑ p ∈ Finset.range n, f p = ∑ p ∈ Finset.range n, f (t p) :=
  (Finset.sum_nbij t (fun a ha => h.mapsTo ha) h.injOn h.surjOn fun _ _ => rfl).symm

namespace Isomorphic

variable {P : ℕ} {π : ℕ → ℕ} {C : (ℕ → ℝ) → (ℕ → ℝ) → Prop} {γ : List ℕ → List ℕ} {τ : List ℕ → ℕ → ℕ} {m m' : LLGP} (R : Isomorphic P π C γ τ m m')
include R

theorem own (r : Fin (m.gp.Xs.map Arr2.rows).sum) : ownerOf (m.gp.Xs.map Arr2.rows) r < m.fk.D := by
  have := ownerOf_lt _ _ r.2
  rwa [List.length_map, R.ok.data.inputs.len] at this

theorem cov {a b : ℕ} (ha : a < m.fk.D) (hb : b < m.fk.D) {x x' z z' : ℕ → ℝ} (hx : C x x') (hz : C z z') : m'.fk.cov (π a) (π b) x' z' = m.fk.cov a b x z := by
  unfold FK.cov
  rw [R.Q]
  refine Finset.sum_congr rfl fun q hq => ?_
  have hq := Finset.mem_range.1 hq
  rw [R.B q hq a ha b hb, R.points q hq x x' z z' hx hz]

theorem gridCov {g : List ℕ × List ℕ} (hg : g ∈ m.fk.activeDims) {a b : ℕ} (ha : a < m.fk.D) (hb : b < m.fk.D) {p q : ℕ}
    (hp : p < gridSize (m.axesOf g.1)) (hq : q < gridSize (m.axesOf g.1)) : m'.fk.gridCov (m'.axesOf (γ g.1)) g.2 (π a) (π b) (τ g.1 p) (τ g.1 q) = m.fk.gridCov (m.axesOf g.1) g.2 a b p q := by
  unfold FK.gridCov
  refine congrArg List.sum (List.map_congr_left fun k hk => ?_)
  rw [R.B k ((R.ok.groups.group g hg).2.2 k hk) a ha b hb, R.grid g hg k hk p hp q hq]

theorem diag {g : List ℕ × List ℕ} (hg : g ∈ m.fk.activeDims) {a b : ℕ} (ha : a < m.fk.D) (hb : b < m.fk.D) {p q : ℕ} (hp : p < gridSize (m.axesOf g.1))
    (hq : q < gridSize (m.axesOf g.1)) : (if π a = π b ∧ τ g.1 p = τ g.1 q then m'.fk.extraOf (γ g.1, g.2) else 0) = if a = b ∧ p = q then m.fk.extraOf g else 0 := by
  rw [R.extra g hg]
  have e1 : π a = π b ↔ a = b := ⟨R.inj a ha b hb, fun h => by rw [h]⟩
  have e2 : τ g.1 p = τ g.1 q ↔ p = q := ⟨fun h => (R.order g hg).injOn (Finset.mem_coe.2 (Finset.mem_range.2 hp)) (Finset.mem_coe.2 (Finset.mem_range.2 hq)) h, fun h => by rw [h]⟩
  simp only [e1, e2]

theorem skiCov {a b : ℕ} (ha : a < m.fk.D) (hb : b < m.fk.D) {x x' z z' : ℕ → ℝ} (hx : C x x') (hz : C z z') :
    m'.fk.skiCov m'.axesOf m'.fk.extraOf (π a) (π b) x' z' = m.fk.skiCov m.axesOf m.fk.extraOf a b x z := by
  unfold FK.skiCov
  rw [(R.dims.map _).sum_eq, List.map_map]
  refine congrArg List.sum (List.map_congr_left fun g hg => ?_)
  simp only [Function.comp]
  rw [R.size g hg, sum_reorder (R.order g hg)]
  refine Finset.sum_congr rfl fun p hp => ?_
  rw [sum_reorder (R.order g hg)]
  refine Finset.sum_congr rfl fun q hq => ?_
  have hp := Finset.mem_range.1 hp
  have hq := Finset.mem_range.1 hq
  rw [R.weight g hg x x' hx p hp, R.weight g hg z z' hz q hq, R.gridCov hg ha hb hp hq, R.diag hg ha hb hp hq]

variable {σ : Fin (m.gp.Xs.map Arr2.rows).sum ≃ Fin (m'.gp.Xs.map Arr2.rows).sum} (hσ : ∀ r,
    ownerOf (m'.gp.Xs.map Arr2.rows) (σ r) = π (ownerOf (m.gp.Xs.map Arr2.rows) r) ∧ C (rowPoint m.gp.Xs r) (rowPoint m'.gp.Xs (σ r)) ∧
    m.gp.Ys.flatten.getD r 0 = m'.gp.Ys.flatten.getD (σ r) 0)
include hσ

theorem noiseAt (i j : Fin (m.gp.Xs.map Arr2.rows).sum) :
    (if (σ i : ℕ) = σ j then m'.fk.noise.getD (ownerOf (m'.gp.Xs.map Arr2.rows) (σ i)) 0 else 0) =
      if (i : ℕ) = j then m.fk.noise.getD (ownerOf (m.gp.Xs.map Arr2.rows) i) 0 else 0 := by
  by_cases e : i = j
  · rw [if_pos (by rw [e]), if_pos (by rw [e]), (hσ i).1, R.noise _ (R.own i)]
  · rw [if_neg fun h => e (σ.injective (Fin.ext h)), if_neg fun h => e (Fin.ext h)]

theorem covMat (i j : Fin (m.gp.Xs.map Arr2.rows).sum) : m.fk.covMat m.gp.Xs i j = m'.fk.covMat m'.gp.Xs (σ i) (σ j) := by
  show m.fk.cov _ _ (rowPoint m.gp.Xs i) (rowPoint m.gp.Xs j) + _ = m'.fk.cov _ _ (rowPoint m'.gp.Xs (σ i)) (rowPoint m'.gp.Xs (σ j)) + _
  rw [R.noiseAt hσ i j, (hσ i).1, (hσ j).1, R.cov (R.own i) (R.own j) (hσ i).2.1 (hσ j).2.1]

theorem skiMat (i j : Fin (m.gp.Xs.map Arr2.rows).sum) : m.fk.skiMat m.axesOf m.fk.extraOf m.gp.Xs i j = m'.fk.skiMat m'.axesOf m'.fk.extraOf m'.gp.Xs (σ i) (σ j) := by
  show m.fk.skiCov _ _ _ _ (rowPoint m.gp.Xs i) (rowPoint m.gp.Xs j) + _ = m'.fk.skiCov _ _ _ _ (rowPoint m'.gp.Xs (σ i)) (rowPoint m'.gp.Xs (σ j)) + _
  rw [R.noiseAt hσ i j, (hσ i).1, (hσ j).1, R.skiCov (R.own i) (R.own j) (hσ i).2.1 (hσ j).2.1]

theorem crossCov {d : ℕ} (hd : d < m.fk.D) {x x' : ℕ → ℝ} (hx : C x x') (i : Fin (m.gp.Xs.map Arr2.rows).sum) :
    m.fk.crossCov m.gp.Xs d x i = m'.fk.crossCov m'.gp.Xs (π d) x' (σ i) := by
  unfold FK.crossCov
  rw [(hσ i).1, R.cov hd (R.own i) hx (hσ i).2.1]

theorem skiCross {d : ℕ} (hd : d < m.fk.D) {x x' : ℕ → ℝ} (hx : C x x') (i : Fin (m.gp.Xs.map Arr2.rows).sum) :
    m.fk.skiCross m.axesOf m.fk.extraOf m.gp.Xs d x i = m'.fk.skiCross m'.axesOf m'.fk.extraOf m'.gp.Xs (π d) x' (σ i) := by
  unfold FK.skiCross
  rw [(hσ i).1, R.skiCov hd (R.own i) hx (hσ i).2.1]

theorem gridToData {g : List ℕ × List ℕ} (hg : g ∈ m.fk.activeDims) {d : ℕ} (hd : d < m.fk.D) {p : ℕ} (hp : p < gridSize (m.axesOf g.1))
    (i : Fin (m.gp.Xs.map Arr2.rows).sum) :
    m.fk.gridToData (m.axesOf g.1) m.fk.extraOf g m.gp.Xs d p i = m'.fk.gridToData (m'.axesOf (γ g.1)) m'.fk.extraOf (γ g.1, g.2) m'.gp.Xs (π d) (τ g.1 p) (σ i) := by
  unfold FK.gridToData
  rw [R.size g hg, (hσ i).1, sum_reorder (R.order g hg) fun q => _ * gridWeight (m'.axesOf (γ g.1)) _ q]
  refine Finset.sum_congr rfl fun q hq => ?_
  have hq := Finset.mem_range.1 hq
  rw [R.weight g hg _ _ (hσ i).2.1 q hq, R.gridCov hg hd (R.own i) hp hq, R.diag hg hd (R.own i) hp hq]

omit hσ

theorem condVar {d : ℕ} (hd : d < m.fk.D) {x x' : ℕ → ℝ} (hx : C x x') :
    m'.fk.crossCov m'.gp.Xs (π d) x' ⬝ᵥ (m'.fk.covMat m'.gp.Xs)⁻¹.mulVec (m'.fk.crossCov m'.gp.Xs (π d) x') =
      m.fk.crossCov m.gp.Xs d x ⬝ᵥ (m.fk.covMat m.gp.Xs)⁻¹.mulVec (m.fk.crossCov m.gp.Xs d x) := by
  obtain ⟨σ, hσ⟩ := R.rows
  exact quadratic_equiv σ (R.covMat hσ) (R.crossCov hσ hd hx) (R.crossCov hσ hd hx)

theorem flyVar {d : ℕ} (hd : d < m.fk.D) {x x' : ℕ → ℝ} (hx : C x x') :
    m'.fk.crossCov m'.gp.Xs (π d) x' ⬝ᵥ (m'.fk.skiMat m'.axesOf m'.fk.extraOf m'.gp.Xs)⁻¹.mulVec (m'.fk.crossCov m'.gp.Xs (π d) x') =
      m.fk.crossCov m.gp.Xs d x ⬝ᵥ (m.fk.skiMat m.axesOf m.fk.extraOf m.gp.Xs)⁻¹.mulVec (m.fk.crossCov m.gp.Xs d x) := by
  obtain ⟨σ, hσ⟩ := R.rows
  exact quadratic_equiv σ (R.skiMat hσ) (R.crossCov hσ hd hx) (R.crossCov hσ hd hx)

theorem gridVar {g : List ℕ × List ℕ} (hg : g ∈ m.fk.activeDims) {d : ℕ} (hd : d < m.fk.D) {p : ℕ} (hp : p < gridSize (m.axesOf g.1)) :
    m'.fk.gridExplained m'.axesOf m'.fk.extraOf (γ g.1, g.2) m'.gp.Xs (π d) (τ g.1 p) = m.fk.gridExplained m.axesOf m.fk.extraOf g m.gp.Xs d p := by
  obtain ⟨σ, hσ⟩ := R.rows
  exact quadratic_equiv σ (R.skiMat hσ) (R.gridToData hσ hg hd hp) (R.gridToData hσ hg hd hp)

theorem mean {d : ℕ} (hd : d < m.fk.D) {x x' : ℕ → ℝ} (hx : C x x') :
    m'.fk.skiMean m'.axesOf m'.fk.extraOf m'.gp.Xs m'.gp.Ys (π d) x' = m.fk.skiMean m.axesOf m.fk.extraOf m.gp.Xs m.gp.Ys d x := by
  obtain ⟨σ, hσ⟩ := R.rows
  exact quadratic_equiv σ (R.skiMat hσ) (R.skiCross hσ hd hx) fun r => (hσ r).2.2

theorem quadratic : toVec (m'.gp.Xs.map Arr2.rows).sum m'.gp.Ys.flatten ⬝ᵥ (m'.fk.skiMat m'.axesOf m'.fk.extraOf m'.gp.Xs)⁻¹.mulVec (toVec (m'.gp.Xs.map Arr2.rows).sum m'.gp.Ys.flatten) =
    toVec (m.gp.Xs.map Arr2.rows).sum m.gp.Ys.flatten ⬝ᵥ (m.fk.skiMat m.axesOf m.fk.extraOf m.gp.Xs)⁻¹.mulVec (toVec (m.gp.Xs.map Arr2.rows).sum m.gp.Ys.flatten) := by
  obtain ⟨σ, hσ⟩ := R.rows
  exact quadratic_equiv σ (R.skiMat hσ) (fun r => (hσ r).2.2) fun r => (hσ r).2.2

theorem det : (m'.fk.covMat m'.gp.Xs).det = (m.fk.covMat m.gp.Xs).det := by
  obtain ⟨σ, hσ⟩ := R.rows
  rw [show m.fk.covMat m.gp.Xs = (m'.fk.covMat m'.gp.Xs).submatrix σ σ from by ext i j; exact R.covMat hσ i j, Matrix.det_submatrix_equiv_self]

theorem n_eq : m'.n = m.n := by
  obtain ⟨σ, -⟩ := R.rows
  have := Fintype.card_congr σ
  simpa [LLGP.n] using this.symm

theorem nodup (hn : ∀ ad ∈ m.fk.activeDims.map Prod.fst, ad.Nodup) : ∀ ad ∈ m'.fk.activeDims.map Prod.fst, ad.Nodup := fun ad h => by
  rw [(R.dims.map _).mem_iff, List.map_map] at h
  obtain ⟨g, hg, rfl⟩ := List.mem_map.1 h
  exact R.once g hg (hn _ (List.mem_map_of_mem hg))

theorem groups_len : m'.fk.activeDims.length = m.fk.activeDims.length := by rw [R.dims.length_eq, List.length_map]

/-- what the observations explain, as functions of output and point: the same exception, or the same numbers -/
theorem explained {sv : Solvers} (hs : sv.Fit) (hx : sv.Exact) {k k' : LLKernel} (hc : m.Current sv k)
    (hc' : m'.Current sv k') (hso : m.fk.Sound) (hso' : m'.fk.Sound) (hn : ∀ ad ∈ m.fk.activeDims.map Prod.fst, ad.Nodup) {e e' : Env} (he : e.Works) (he' : e'.Works)
    {Xs Xs' : List (Arr2 ℝ)} (hX : InputsOK m.fk.D P Xs) (hX' : InputsOK m.fk.D P Xs') (hsum : (Xs'.map Arr2.rows).sum = (Xs.map Arr2.rows).sum) :
    (∃ x, m.explained sv e Xs (m.queryWs Xs) = .error x ∧ m'.explained sv e' Xs' (m'.queryWs Xs') = .error x) ∨
    ∃ F F' : ℕ → (ℕ → ℝ) → ℝ, m.explained sv e Xs (m.queryWs Xs) = .ok (vmk (Xs.map Arr2.rows).sum fun r => F (ownerOf (Xs.map Arr2.rows) r) (rowPoint Xs r)) ∧
      m'.explained sv e' Xs' (m'.queryWs Xs') = .ok (vmk (Xs'.map Arr2.rows).sum fun r => F' (ownerOf (Xs'.map Arr2.rows) r) (rowPoint Xs' r)) ∧
      ∀ d < m.fk.D, ∀ x x', C x x' → F' (π d) x' = F d x := by
  have hn' := R.nodup hn
  have hX' : InputsOK m'.fk.D P Xs' := by rw [R.D]; exact hX'
  have hxs := exact_of_current hs hx R.ok hc hso hn
  have hxs' := exact_of_current hs hx R.ok' hc' hso' hn'
  have hpd := covMat_posDef R.ok.ready.wf R.ok.data.inputs.len hso.kernels hso.kappa hso.noise
  have hpd' := covMat_posDef R.ok'.ready.wf R.ok'.data.inputs.len hso'.kernels hso'.kappa hso'.noise
  cases hm : m.prediction with
  | exact =>
    exact .inr ⟨fun d x => m.fk.crossCov m.gp.Xs d x ⬝ᵥ (m.fk.covMat m.gp.Xs)⁻¹.mulVec (m.fk.crossCov m.gp.Xs d x),
      fun d x => m'.fk.crossCov m'.gp.Xs d x ⬝ᵥ (m'.fk.covMat m'.gp.Xs)⁻¹.mulVec (m'.fk.crossCov m'.gp.Xs d x),
      (explained_exact R.ok hm hX sv e _).1 hpd, (explained_exact R.ok' (R.mode.trans hm) hX' sv e' _).1 hpd', fun d hd x x' hxx => R.condVar hd hxx⟩
  | onTheFly =>
    by_cases h0 : 0 < (Xs.map Arr2.rows).sum
    · exact .inr ⟨fun d x => m.fk.crossCov m.gp.Xs d x ⬝ᵥ (m.fk.skiMat m.axesOf m.fk.extraOf m.gp.Xs)⁻¹.mulVec (m.fk.crossCov m.gp.Xs d x),
        fun d x => m'.fk.crossCov m'.gp.Xs d x ⬝ᵥ (m'.fk.skiMat m'.axesOf m'.fk.extraOf m'.gp.Xs)⁻¹.mulVec (m'.fk.crossCov m'.gp.Xs d x),
        explained_fly_exact hs R.ok hm hc (hxs _) he hX h0 _, explained_fly_exact hs R.ok' (R.mode.trans hm) hc' (hxs' _) he' hX' (by rw [hsum]; exact h0) _,
        fun d hd x x' hxx => R.flyVar hd hxx⟩
    · have h0 : (Xs.map Arr2.rows).sum = 0 := by omega
      exact .inl ⟨_, explained_fly_none R.ok hm hc hX (he 0) h0 _, explained_fly_none R.ok' (R.mode.trans hm) hc' hX' (he' 0) (by rw [hsum]; exact h0) _⟩
  | precompute =>
    have hm' := R.mode.trans hm
    obtain ⟨f1, f2⟩ := explained_pre_fails (sv := sv) R.ok hm e Xs (m.queryWs Xs)
    obtain ⟨f1', f2'⟩ := explained_pre_fails (sv := sv) R.ok' hm' e' Xs' (m'.queryWs Xs')
    by_cases hl : m.fk.activeDims.length = 1
    · obtain ⟨g, hg⟩ := List.length_eq_one_iff.1 hl
      have hgm : g ∈ m.fk.activeDims := by rw [hg]; simp
      have hg' : m'.fk.activeDims = [(γ g.1, g.2)] := List.perm_singleton.1 (by have := R.dims; rwa [hg] at this)
      by_cases hg1 : g.1 = List.range P
      · refine .inr ⟨fun d x => ∑ p ∈ Finset.range (gridSize (m.axesOf g.1)), gridWeight (m.axesOf g.1) (coords g.1 x) p * m.fk.gridExplained m.axesOf m.fk.extraOf g m.gp.Xs d p,
          fun d x => ∑ p ∈ Finset.range (gridSize (m'.axesOf (γ g.1))), gridWeight (m'.axesOf (γ g.1)) (coords (γ g.1) x) p * m'.fk.gridExplained m'.axesOf m'.fk.extraOf (γ g.1, g.2) m'.gp.Xs d p,
          explained_pre_exact hs R.ok hm hc (hxs _) he hX hg hg1, explained_pre_exact hs R.ok' hm' hc' (hxs' _) he' hX' hg' ((R.full g hgm).2 hg1), fun d hd x x' hxx => ?_⟩
        beta_reduce
        rw [R.size g hgm, sum_reorder (R.order g hgm)]
        refine Finset.sum_congr rfl fun p hp => ?_
        have hp := Finset.mem_range.1 hp
        rw [R.gridVar hgm hd hp, R.weight g hgm x x' hxx p hp]
      · exact .inl ⟨_, f2 g hg hg1, f2' _ hg' fun h => hg1 ((R.full g hgm).1 h)⟩
    · exact .inl ⟨_, f1 hl, f1' (by rw [R.groups_len]; exact hl)⟩

theorem priorVar {d : ℕ} (hd : d < m.fk.D) {x x' : ℕ → ℝ} (hx : C x x') : m'.fk.priorVar (π d) x' = m.fk.priorVar d x := by
  unfold FK.priorVar
  rw [R.cov hd hd hx hx, R.noise d hd]

end Isomorphic

/-- `Qs'` asks the questions `Qs` with the other names of the outputs and in the other coordinates -/
structure SameQueries (P D : ℕ) (π : ℕ → ℕ) (C : (ℕ → ℝ) → (ℕ → ℝ) → Prop) (Qs Qs' : List (NDArr ℝ)) : Prop where
  lens : ∀ d < D, (queryLens Qs').getD (π d) 0 = (queryLens Qs).getD d 0
  sum : (queryLens Qs').sum = (queryLens Qs).sum
  point : ∀ d < D, ∀ i < (queryLens Qs).getD d 0, C (queryPoint P Qs d i) (queryPoint P Qs' (π d) i)

/-- predictions of isomorphic models: the same exception, or the same numbers under the other names -/
theorem Isomorphic.predict {P : ℕ} {π : ℕ → ℕ} {C : (ℕ → ℝ) → (ℕ → ℝ) → Prop} {γ : List ℕ → List ℕ} {τ : List ℕ → ℕ → ℕ} {m m' : LLGP} (R : Isomorphic P π C γ τ m m') {sv : Solvers} (hx : sv.Exact) {k k' : LLKernel}
    {Qs Qs' : List (NDArr ℝ)} (h : Asked sv m P k Qs) (h' : Asked sv m' P k' Qs') (hq : SameQueries P m.fk.D π C Qs Qs') (hso : m.fk.Sound) (hso' : m'.fk.Sound)
    (hn : ∀ ad ∈ m.fk.activeDims.map Prod.fst, ad.Nodup) {e e' : Env} (he : e.Works) (he' : e'.Works) :
    (∃ x, m.gp.predict (m.rawPredict sv e) Qs = .error x ∧ m'.gp.predict (m'.rawPredict sv e') Qs' = .error x) ∨
    ∃ r r', m.gp.predict (m.rawPredict sv e) Qs = .ok r ∧ m'.gp.predict (m'.rawPredict sv e') Qs' = .ok r' ∧ r.1.length = m.fk.D ∧ r.2.length = m.fk.D ∧
      r'.1.length = m.fk.D ∧ r'.2.length = m.fk.D ∧ ∀ d < m.fk.D, r'.1.getD (π d) [] = r.1.getD d [] ∧ r'.2.getD (π d) [] = r.2.getD d [] := by
  have hn' := R.nodup hn
  have hXX : InputsOK m.fk.D P (padded P Qs') := by rw [← R.D]; exact h'.inputs
  rcases R.explained h.fit hx h.current h'.current hso hso' hn he he' h.inputs hXX (by rw [padded_lens, padded_lens]; exact hq.sum) with ⟨x, h1, h2⟩ | ⟨F, F', h1, h2, h3⟩
  · exact .inl ⟨x, predict_error h (raw_explained_error h.fit h.ok h.current h.inputs e hso.plain h1),
      predict_error h' (raw_explained_error h'.fit h'.ok h'.current h'.inputs e' hso'.plain h2)⟩
  · have l1 : ((padded P Qs).map Arr2.rows).sum = (queryLens Qs).sum := by rw [padded_lens]
    have l2 : ((padded P Qs').map Arr2.rows).sum = (queryLens Qs').sum := by rw [padded_lens]
    rw [l1] at h1
    rw [l2] at h2
    obtain ⟨r, r1, -, r3⟩ := predict_from h hso.plain e h1
    obtain ⟨r', s1, -, s3⟩ := predict_from h' hso'.plain e' h2
    simp only [meanWith_exact h.ok h.current (exact_of_current h.fit hx h.ok h.current hso hn _)] at r3
    simp only [meanWith_exact h'.ok h'.current (exact_of_current h'.fit hx h'.ok h'.current hso' hn' _)] at s3
    rw [R.D] at s3
    refine .inr ⟨r, r', r1, s1, r3.len.1, r3.len.2, s3.len.1, s3.len.2, fun d hd => ?_⟩
    have hd' := R.maps d hd
    constructor
    · refine list_ext_getD (d := 0) (by rw [(r3.mlen d hd).1, (s3.mlen _ hd').1, hq.lens d hd]) fun i hi => ?_
      rw [(s3.mlen _ hd').1] at hi
      have hi' := hi
      rw [hq.lens d hd] at hi'
      rw [(r3.entry d hd i hi').1, (s3.entry _ hd' i hi).1, R.mean hd (hq.point d hd i hi'), R.norm d hd]
    · refine list_ext_getD (d := 0) (by rw [(r3.mlen d hd).2, (s3.mlen _ hd').2, hq.lens d hd]) fun i hi => ?_
      rw [(s3.mlen _ hd').2] at hi
      have hi' := hi
      rw [hq.lens d hd] at hi'
      obtain ⟨q1, -, q3⟩ := query_row h.queries hd hi'
      obtain ⟨q1', -, q3'⟩ := query_row h'.queries (by rw [R.D]; exact hd') hi
      rw [(r3.entry d hd i hi').2, (s3.entry _ hd' i hi).2, q1, q3, q1', q3', R.norm d hd, R.priorVar hd (hq.point d hd i hi'), h3 d hd _ _ (hq.point d hd i hi')]

/-- raw predictions of isomorphic models: the same exception, or the same numbers under the other names -/
theorem Isomorphic.raw {P : ℕ} {π : ℕ → ℕ} {C : (ℕ → ℝ) → (ℕ → ℝ) → Prop} {γ : List ℕ → List ℕ} {τ : List ℕ → ℕ → ℕ} {m m' : LLGP} (R : Isomorphic P π C γ τ m m') {sv : Solvers} (hx : sv.Exact) {k k' : LLKernel}
    {Qs Qs' : List (NDArr ℝ)} (h : Asked sv m P k Qs) (h' : Asked sv m' P k' Qs') (hq : SameQueries P m.fk.D π C Qs Qs') (hso : m.fk.Sound) (hso' : m'.fk.Sound)
    (hn : ∀ ad ∈ m.fk.activeDims.map Prod.fst, ad.Nodup) {e e' : Env} (he : e.Works) (he' : e'.Works) :
    (∃ x, m.rawPredict sv e (padded P Qs) = .error x ∧ m'.rawPredict sv e' (padded P Qs') = .error x) ∨
    ∃ r r', m.rawPredict sv e (padded P Qs) = .ok r ∧ m'.rawPredict sv e' (padded P Qs') = .ok r' ∧ r.1.length = m.fk.D ∧ r.2.length = m.fk.D ∧
      r'.1.length = m.fk.D ∧ r'.2.length = m.fk.D ∧ ∀ d < m.fk.D, r'.1.getD (π d) [] = r.1.getD d [] ∧ r'.2.getD (π d) [] = r.2.getD d [] := by
  have hn' := R.nodup hn
  have hXX : InputsOK m.fk.D P (padded P Qs') := by rw [← R.D]; exact h'.inputs
  rcases R.explained h.fit hx h.current h'.current hso hso' hn he he' h.inputs hXX (by rw [padded_lens, padded_lens]; exact hq.sum) with ⟨x, h1, h2⟩ | ⟨F, F', h1, h2, h3⟩
  · exact .inl ⟨x, raw_explained_error h.fit h.ok h.current h.inputs e hso.plain h1, raw_explained_error h'.fit h'.ok h'.current h'.inputs e' hso'.plain h2⟩
  · obtain ⟨r, r1, -, r3⟩ := raw_ok h.fit h.ok h.current h.inputs hso.plain e h1 (vmk_length _ _)
    obtain ⟨r', s1, -, s3⟩ := raw_ok h'.fit h'.ok h'.current h'.inputs hso'.plain e' h2 (vmk_length _ _)
    simp only [meanWith_exact h.ok h.current (exact_of_current h.fit hx h.ok h.current hso hn _), padded_lens] at r3
    simp only [meanWith_exact h'.ok h'.current (exact_of_current h'.fit hx h'.ok h'.current hso' hn' _), padded_lens] at s3
    rw [R.D] at s3
    refine .inr ⟨r, r', r1, s1, r3.len.1, r3.len.2, s3.len.1, s3.len.2, fun d hd => ?_⟩
    have hd' := R.maps d hd
    have hdQ : d < Qs.length := by rw [h.queries.1]; exact hd
    have hdQ' : π d < Qs'.length := by rw [h'.queries.1, R.D]; exact hd'
    constructor
    · refine list_ext_getD (d := 0) (by rw [(r3.mlen d hd).1, (s3.mlen _ hd').1, hq.lens d hd]) fun i hi => ?_
      rw [(s3.mlen _ hd').1] at hi
      have hi' := hi
      rw [hq.lens d hd] at hi'
      rw [(r3.entry d hd i hi').1, (s3.entry _ hd' i hi).1, pointOf_padded hdQ, pointOf_padded hdQ', R.mean hd (hq.point d hd i hi')]
    · refine list_ext_getD (d := 0) (by rw [(r3.mlen d hd).2, (s3.mlen _ hd').2, hq.lens d hd]) fun i hi => ?_
      rw [(s3.mlen _ hd').2] at hi
      have hi' := hi
      rw [hq.lens d hd] at hi'
      obtain ⟨q1, q2, q3⟩ := query_row h.queries hd hi'
      obtain ⟨q1', q2', q3'⟩ := query_row h'.queries (by rw [R.D]; exact hd') hi
      rw [padded_lens] at q1 q1'
      rw [(r3.entry d hd i hi').2, (s3.entry _ hd' i hi).2, vmk_getD_lt q2, vmk_getD_lt q2', q1, q3, q1', q3', pointOf_padded hdQ, pointOf_padded hdQ',
        R.priorVar hd (hq.point d hd i hi'), h3 d hd _ _ (hq.point d hd i hi')]

/-- the numbers of the likelihood are the same -/
theorem Isomorphic.numbers {P : ℕ} {π : ℕ → ℕ} {C : (ℕ → ℝ) → (ℕ → ℝ) → Prop} {γ : List ℕ → List ℕ} {τ : List ℕ → ℕ → ℕ} {m m' : LLGP} (R : Isomorphic P π C γ τ m m') {sv : Solvers} (hs : sv.Fit) (hx : sv.Exact) {k k' : LLKernel}
    (hc : m.Current sv k) (hc' : m'.Current sv k') (hso : m.fk.Sound) (hso' : m'.fk.Sound) (hn : ∀ ad ∈ m.fk.activeDims.map Prod.fst, ad.Nodup) :
    ∃ l l', m.dense = .ok l ∧ m'.dense = .ok l' ∧ logDetOf l' = logDetOf l ∧ m'.normalQuadratic = m.normalQuadratic ∧ m'.logLikelihoodOf l' = m.logLikelihoodOf l := by
  have hn' := R.nodup hn
  have hpd := covMat_posDef R.ok.ready.wf R.ok.data.inputs.len hso.kernels hso.kappa hso.noise
  have hpd' := covMat_posDef R.ok'.ready.wf R.ok'.data.inputs.len hso'.kernels hso'.kappa hso'.noise
  obtain ⟨l, hl, hd⟩ := (C40_log_det m P R.ok).1 hpd
  obtain ⟨l', hl', hd'⟩ := (C40_log_det m' P R.ok').1 hpd'
  obtain ⟨q1, q2⟩ := C40_log_likelihood sv hs m P R.ok k hc l hl
  obtain ⟨q1', q2'⟩ := C40_log_likelihood sv hs m' P R.ok' k' hc' l' hl'
  have hq : toVec m'.n m'.y ⬝ᵥ toVec m'.n k'.approx.alpha = toVec m.n m.y ⬝ᵥ toVec m.n k.approx.alpha := by
    rw [alpha_exact R.ok hc (exact_of_current hs hx R.ok hc hso hn _), alpha_exact R.ok' hc' (exact_of_current hs hx R.ok' hc' hso' hn' _)]
    exact R.quadratic
  refine ⟨l, l', hl, hl', ?_, ?_, ?_⟩
  · rw [hd, hd', R.det]
  · rw [q1, q1', hq]
  · rw [q2, q2', hq, R.det, R.n_eq]

end Verif
