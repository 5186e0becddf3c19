import Verif.Props.Kern
import Verif.Proofs.Matern
import Verif.Spec.LinAlg
import Verif.Proofs.NDArr
import Mathlib.Analysis.InnerProductSpace.PiL2

/-! C25: the kernels are positive semi-definite. -/

namespace Verif

/-- the `n × n` array of Euclidean distances between points of `ℝ^d` (what `scipy.spatial.distance.cdist` returns) -/
noncomputable def distArr {d : ℕ} (n : ℕ) (x : ℕ → EuclideanSpace ℝ (Fin d)) : NDArr ℝ :=
  ⟨[n, n], (Arr2.of n n fun i j => ‖x i - x j‖).data⟩

/-- the array returned by a kernel, as a matrix -/
def arrMatrix (n : ℕ) (v : List ℝ) : Matrix (Fin n) (Fin n) ℝ := fnMatrix n n (Arr2.get ⟨n, n, v⟩)

/-- does not contain `StdPeriodic` -/
def Kern.aperiodic : Kern → Prop
  | .stdPeriodic _ _ _ => False
  | .scaled k _ _ => k.aperiodic
  | _ => True

open Classical in
theorem doc_psd {V : Type*} [NormedAddCommGroup V] [InnerProductSpace ℝ V] {n : ℕ} (x : Fin n → V) :
    ∀ k : Kern, k.Valid → k.aperiodic → (Matrix.of fun i j => k.doc ‖x i - x j‖).PosSemidef
  | .rbf g ad, h, _ => by
    have hg : 0 < g := h
    have := psd_gaussian x (show 0 ≤ g / 2 by linarith)
    simp only [Kern.doc]
    convert this using 6
    ring
  | .matern32 g ad, h, _ => by
    have hg : 0 < g := h
    have := psd_matern x (show 0 ≤ g * Real.sqrt 3 by positivity)
    simp only [Kern.doc]
    have e : ∀ r : ℝ, (1 + r * g * Real.sqrt 3) * Real.exp (-(g * r * Real.sqrt 3))
        = (1 + g * Real.sqrt 3 * r) * Real.exp (-(g * Real.sqrt 3 * r)) := by
      intro r
      rw [show r * g * Real.sqrt 3 = g * Real.sqrt 3 * r by ring, show g * r * Real.sqrt 3 = g * Real.sqrt 3 * r by ring]
    simp only [e]
    exact this
  | .stdPeriodic g T ad, _, ha => ha.elim
  | .identity ad, _, _ => by
    have := psd_identity x
    have e : ∀ i j, (Kern.identity ad).doc ‖x i - x j‖ = (Matrix.of fun i j => if x i = x j then (1 : ℝ) else 0) i j := by
      intro i j
      simp only [Kern.doc, Matrix.of_apply]
      by_cases h : x i = x j
      · simp [h]
      · rw [if_neg h, if_neg (by simpa [sub_eq_zero] using h)]
    simp only [e]
    exact this
  | .scaled k s ad, h, ha => psd_smul (doc_psd x k h.1 ha) h.2.le

theorem doc_psd_line {n : ℕ} (x : Fin n → ℝ) :
    ∀ k : Kern, k.Valid → (Matrix.of fun i j => k.doc |x i - x j|).PosSemidef
  | .rbf g ad, h => doc_psd x _ h trivial
  | .matern32 g ad, h => doc_psd x _ h trivial
  | .stdPeriodic g T ad, h => psd_periodic x T h.1.le
  | .identity ad, h => doc_psd x _ h trivial
  | .scaled k s ad, h => psd_smul (doc_psd_line x k h.1) h.2.le

theorem arrMatrix_of (n : ℕ) (f : ℕ → ℕ → ℝ) (k : ℝ → ℝ) :
    arrMatrix n ((Arr2.of n n f).data.map k) = Matrix.of fun i j : Fin n => k (f i j) := by
  ext i j
  have hi := i.2
  have hj := j.2
  have hlt : i.1 * n + j.1 < n * n := by nlinarith
  simp only [arrMatrix, fnMatrix, Matrix.of_apply, Arr2.get, Arr2.of, vmk, List.map_map]
  rw [List.getD_eq_getElem _ _ (by simpa using hlt)]
  simp only [List.getElem_map, List.getElem_range, Function.comp]
  rw [idx_div hj, idx_mod hj]

/-- C25, the part that holds in every dimension: for `RBF`, `Matern32` and `Identity`, under any nesting of `Scaled`, and any
`n` points of `ℝ^d`, `from_dist` of their distance matrix is a positive semi-definite matrix. Missing: `StdPeriodic`, for
which the claim holds on the line (`C25_psd_line`) and is false in the plane (`C25_periodic_plane_not_psd`). -/
theorem C25_psd_partial (k : Kern) (hk : k.Valid) (ha : k.aperiodic) (d n : ℕ) (x : ℕ → EuclideanSpace ℝ (Fin d)) :
    ∃ v, k.fromDist (.arr (distArr n x)) = .ok (.arr ⟨[n, n], v⟩) ∧ (arrMatrix n v).PosSemidef := by
  refine ⟨_, fromDist_arr k hk _ (by simp [distArr]), ?_⟩
  simp only [distArr]
  rw [arrMatrix_of]
  exact doc_psd (fun i : Fin n => x i) k hk ha

/-- C25 on the line: every kernel class, every nesting. -/
theorem C25_psd_line (k : Kern) (hk : k.Valid) (n : ℕ) (x : ℕ → ℝ) :
    ∃ v, k.fromDist (.arr ⟨[n, n], (Arr2.of n n fun i j => |x i - x j|).data⟩) = .ok (.arr ⟨[n, n], v⟩) ∧
      (arrMatrix n v).PosSemidef := by
  refine ⟨_, fromDist_arr k hk _ (by simp), ?_⟩
  simp only
  rw [arrMatrix_of]
  exact doc_psd_line (fun i : Fin n => x i) k hk

/-- three points of the plane at mutual distances `T`, `T` and `T/2` -/
noncomputable def badTriangle (T : ℝ) : ℕ → EuclideanSpace ℝ (Fin 2)
  | 0 => !₂[0, 0]
  | 1 => !₂[T * (Real.sqrt 15 / 4), T / 4]
  | _ => !₂[T * (Real.sqrt 15 / 4), -T / 4]

/-- C25 is false of `StdPeriodic` in the plane: for every period and lengthscale there are three points whose kernel matrix
is not positive semi-definite. -/
theorem C25_periodic_plane_not_psd (g T : ℝ) (ad) (hk : (Kern.stdPeriodic g T ad).Valid) :
    ∃ v, (Kern.stdPeriodic g T ad).fromDist (.arr (distArr 3 (badTriangle T))) = .ok (.arr ⟨[3, 3], v⟩) ∧
      ¬ (arrMatrix 3 v).PosSemidef := by
  refine ⟨_, fromDist_arr _ hk _ (by simp [distArr]), ?_⟩
  simp only [distArr]
  rw [arrMatrix_of]
  have hT : 0 < T := (Real.exp_pos _).trans hk.2
  have hg : 0 < g := hk.1
  have h15 : Real.sqrt 15 ^ 2 = 15 := Real.sq_sqrt (by norm_num)
  have d00 : ∀ i, ‖badTriangle T i - badTriangle T i‖ = 0 := fun i => by simp
  have d01 : ‖badTriangle T 0 - badTriangle T 1‖ = T := by
    rw [EuclideanSpace.norm_eq, Real.sqrt_eq_iff_mul_self_eq (by positivity) hT.le]
    simp [badTriangle, Fin.sum_univ_two]
    nlinarith
  have d02 : ‖badTriangle T 0 - badTriangle T 2‖ = T := by
    rw [EuclideanSpace.norm_eq, Real.sqrt_eq_iff_mul_self_eq (by positivity) hT.le]
    simp [badTriangle, Fin.sum_univ_two]
    nlinarith
  have d12 : ‖badTriangle T 1 - badTriangle T 2‖ = T / 2 := by
    rw [EuclideanSpace.norm_eq, Real.sqrt_eq_iff_mul_self_eq (by positivity) (by positivity)]
    simp [badTriangle, Fin.sum_univ_two]
    ring
  have k0 : (Kern.stdPeriodic g T ad).doc 0 = 1 := by simp [Kern.doc]
  have kT : (Kern.stdPeriodic g T ad).doc T = 1 := by
    have : Real.pi * T / T = Real.pi := by field_simp
    simp [Kern.doc, this]
  have kH : (Kern.stdPeriodic g T ad).doc (T / 2) = Real.exp (-g / 2) := by
    have : Real.pi * (T / 2) / T = Real.pi / 2 := by field_simp
    simp [Kern.doc, this]
  rw [psd_iff_sum]
  intro h
  have := h.2 ![-2, 1, 1]
  simp only [Fin.sum_univ_three, Matrix.of_apply, Fin.val_zero, Fin.val_one, Fin.val_two, d00, d01, d02, d12,
    norm_sub_rev (badTriangle T 1) (badTriangle T 0), norm_sub_rev (badTriangle T 2) (badTriangle T 0),
    norm_sub_rev (badTriangle T 2) (badTriangle T 1), k0, kT, kH] at this
  have he : Real.exp (-g / 2) < 1 := by
    rw [Real.exp_lt_one_iff]
    linarith
  simp at this
  linarith

/-- instances: a scaled Matern kernel on points of `ℝ^3`; the unit-period kernel is not PSD in the plane -/
example : ∃ v, (Kern.scaled (.matern32 2 none) 3 none).fromDist
    (.arr (distArr 4 fun i => (!₂[(i : ℝ), 1, (i : ℝ) ^ 2] : EuclideanSpace ℝ (Fin 3)))) = .ok (.arr ⟨[4, 4], v⟩) ∧
      (arrMatrix 4 v).PosSemidef :=
  C25_psd_partial (.scaled (.matern32 2 none) 3 none) (by norm_num [Kern.Valid]) (by trivial) 3 4 _

example : (Kern.stdPeriodic 1 1 none).Valid :=
  ⟨one_pos, by rw [Real.exp_lt_one_iff]; norm_num⟩

end Verif
