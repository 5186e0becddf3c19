import Verif.Proofs.BenchOps

/-! How the benchmark program compares two gradients. -/

namespace Verif

theorem zip_flatMap {α β γ : Type} (f : α → List β) (g : α → List γ) : ∀ l : List α, (∀ x ∈ l, (f x).length = (g x).length) →
    (l.flatMap f).zip (l.flatMap g) = l.flatMap fun x => (f x).zip (g x)
  | [], _ => rfl
  | x :: l, h => by
    rw [List.flatMap_cons, List.flatMap_cons, List.flatMap_cons, List.zip_append (h x (by simp)), zip_flatMap f g l fun y hy => h y (by simp [hy])]

theorem sum_map_flatMap {α β : Type} (f : α → List β) (φ : β → ℝ) : ∀ l : List α, ((l.flatMap f).map φ).sum = (l.map fun x => ((f x).map φ).sum).sum
  | [] => rfl
  | x :: l => by
    rw [List.flatMap_cons, List.map_append, List.sum_append, sum_map_flatMap f φ l, List.map_cons, List.sum_cons]

theorem map_vsub (φ : ℝ → ℝ) (u v : List ℝ) : (vsub u v).map φ = (u.zip v).map fun p => φ (p.1 - p.2) := by
  unfold vsub
  rw [List.map_zipWith, List.zip_eq_zipWith, List.map_zipWith]

theorem vsub_length {u v : List ℝ} (h : u.length = v.length) : (vsub u v).length = u.length := by
  unfold vsub
  rw [List.length_zipWith, h, Nat.min_self]

theorem of_data {r c : ℕ} (f : ℕ → ℕ → ℝ) : (Arr2.of r c f).data = (List.range r).flatMap fun i => vmk c (f i) := (flatMap_vmk r c f).symm

/-- the order of `np.hstack` of 2-D arrays -/
def sideBySide (rr Q D : ℕ) (f : ℕ → ℕ → ℕ → ℝ) : List ℝ := (List.range rr).flatMap fun i => (List.range Q).flatMap fun q => vmk D (f q i)

/-- one array after the other -/
def oneByOne (rr Q D : ℕ) (f : ℕ → ℕ → ℕ → ℝ) : List ℝ := (List.range Q).flatMap fun q => (List.range rr).flatMap fun i => vmk D (f q i)

theorem sum_order (rr Q D : ℕ) (f g : ℕ → ℕ → ℕ → ℝ) (φ : ℝ × ℝ → ℝ) :
    (((sideBySide rr Q D f).zip (sideBySide rr Q D g)).map φ).sum = (((oneByOne rr Q D f).zip (oneByOne rr Q D g)).map φ).sum := by
  unfold sideBySide oneByOne
  rw [zip_flatMap _ _ _ fun i _ => by simp [List.length_flatMap], zip_flatMap _ _ _ fun i _ => by simp [List.length_flatMap],
    sum_map_flatMap, sum_map_flatMap]
  have e1 : ∀ i, ((List.range Q).flatMap fun q => vmk D (f q i)).zip ((List.range Q).flatMap fun q => vmk D (g q i)) =
      (List.range Q).flatMap fun q => (vmk D (f q i)).zip (vmk D (g q i)) := fun i => zip_flatMap _ _ _ fun q _ => by simp
  have e2 : ∀ q, ((List.range rr).flatMap fun i => vmk D (f q i)).zip ((List.range rr).flatMap fun i => vmk D (g q i)) =
      (List.range rr).flatMap fun i => (vmk D (f q i)).zip (vmk D (g q i)) := fun q => zip_flatMap _ _ _ fun i _ => by simp
  simp only [e1, e2, sum_map_flatMap]
  exact list_sum_comm _ _ _

theorem side_length (rr Q D : ℕ) (f : ℕ → ℕ → ℕ → ℝ) : (sideBySide rr Q D f).length = rr * (Q * D) ∧ (oneByOne rr Q D f).length = rr * (Q * D) := by
  unfold sideBySide oneByOne
  simp only [List.length_flatMap, vmk_length, List.map_const', List.sum_replicate, List.length_range, smul_eq_mul, true_and]
  ring

theorem vecs_flat (rr Q D : ℕ) (f : ℕ → ℕ → ℕ → ℝ) : (vmk Q fun q => Arr2.of rr D (f q)).flatMap Arr2.data = oneByOne rr Q D f := by
  unfold vmk oneByOne
  rw [List.flatMap_map]
  refine List.flatMap_congr fun q _ => ?_
  exact of_data (f q)

theorem parts2_eq {rr Q D : ℕ} (hQ : 0 < Q) (f : ℕ → ℕ → ℕ → ℝ) : parts2 (vmk Q fun q => Arr2.of rr D (f q)) = .ok ⟨Q * rr, sideBySide rr Q D f⟩ := by
  obtain ⟨n, rfl⟩ : ∃ n, Q = n + 1 := ⟨Q - 1, by omega⟩
  have hhead : ((vmk (n + 1) fun q => Arr2.of rr D (f q)).headD ⟨0, 0, []⟩).rows = rr := by
    unfold vmk
    rw [List.range_succ_eq_map]
    rfl
  unfold parts2
  simp only [hhead]
  rw [if_pos fun A hA => by obtain ⟨i, -, rfl⟩ := mem_vmk_iff.1 hA; rfl]
  congr 2
  · unfold vmk
    rw [List.map_map]
    simp [Function.comp_def, Arr2.of]
  · unfold sideBySide
    refine List.flatMap_congr fun i hi => ?_
    rw [vmk, List.flatMap_map]
    refine List.flatMap_congr fun q _ => ?_
    unfold Arr2.row
    refine list_ext_getD 0 (by simp [Arr2.of]) fun j hj => ?_
    rw [vmk_length] at hj
    have hj : j < D := hj
    rw [vmk_getD_lt hj, vmk_getD_lt (show j < (Arr2.of rr D (f q)).cols from hj), Arr2.of_get (List.mem_range.1 hi) hj]

/-- a gradient for `Q` kernels with `rr` vectors each -/
structure GradShape (fk : FK) (rr : ℕ) (f : ℕ → ℕ → ℕ → ℝ) (G : FKGrad) : Prop where
  vecs : G.vecs = vmk fk.Q fun q => Arr2.of rr fk.D (f q)
  diags : G.diags.map List.length = vmk fk.Q fun _ => fk.D
  kernels : G.kernels.map List.length = vmk fk.Q fun q => (fk.kernels.getD q (.identity none)).params.length
  noise : G.noise.length = fk.D

/-- the four comparisons of the benchmark -/
theorem check_all {fk : FK} {rr : ℕ} (hQ : 0 < fk.Q) {f g : ℕ → ℕ → ℕ → ℝ} {E A : FKGrad} (hE : GradShape fk rr f E) (hA : GradShape fk rr g A) :
    ∃ res, mapExcept (fun ea : Except PyErr GradParts × Except PyErr GradParts => checkGrads ea.1 ea.2)
        [(.ok (parts1 E.kernels), .ok (parts1 A.kernels)), (parts2 E.vecs, parts2 A.vecs), (.ok (parts1 E.diags), .ok (parts1 A.diags)),
          (.ok (parts1 [E.noise]), .ok (parts1 [A.noise]))] = .ok res ∧
      res.map (fun r => r.1) = [((List.range fk.Q).map fun q => (fk.kernels.getD q (.identity none)).params.length).sum, fk.Q * rr, fk.Q * fk.D, fk.D] ∧
      (res.flatMap fun r => r.2.1).length = E.entries.length ∧ (res.flatMap fun r => r.2.2).length = E.entries.length ∧ A.entries.length = E.entries.length ∧
      (∀ φ : ℝ → ℝ, ((res.flatMap fun r => r.2.1).map φ).sum = ((E.entries.zip A.entries).map fun p => φ (p.1 - p.2)).sum) ∧
      ∀ φ : ℝ → ℝ, ((res.flatMap fun r => r.2.2).map φ).sum = (E.entries.map φ).sum := by
  have k1 : E.kernels.flatten.length = A.kernels.flatten.length := by rw [List.length_flatten, List.length_flatten, hE.kernels, hA.kernels]
  have k2 : E.diags.flatten.length = A.diags.flatten.length := by rw [List.length_flatten, List.length_flatten, hE.diags, hA.diags]
  have k3 : E.noise.length = A.noise.length := by rw [hE.noise, hA.noise]
  have l1 := side_length rr fk.Q fk.D f
  have l2 := side_length rr fk.Q fk.D g
  have c1 : checkGrads (.ok (parts1 E.kernels)) (.ok (parts1 A.kernels)) = .ok (((List.range fk.Q).map fun q => (fk.kernels.getD q (.identity none)).params.length).sum,
      vsub E.kernels.flatten A.kernels.flatten, E.kernels.flatten) := by
    unfold checkGrads parts1
    simp only [ok_bind]
    rw [if_pos (by rw [hE.kernels, hA.kernels]), if_pos k1, hE.kernels]
    rfl
  have c2 : checkGrads (parts2 E.vecs) (parts2 A.vecs) = .ok (fk.Q * rr, vsub (sideBySide rr fk.Q fk.D f) (sideBySide rr fk.Q fk.D g), sideBySide rr fk.Q fk.D f) := by
    rw [hE.vecs, hA.vecs, parts2_eq hQ, parts2_eq hQ]
    unfold checkGrads
    simp only [ok_bind, if_true]
    rw [if_pos (by rw [l1.1, l2.1])]
    rfl
  have c3 : checkGrads (.ok (parts1 E.diags)) (.ok (parts1 A.diags)) = .ok (fk.Q * fk.D, vsub E.diags.flatten A.diags.flatten, E.diags.flatten) := by
    unfold checkGrads parts1
    simp only [ok_bind]
    rw [if_pos (by rw [hE.diags, hA.diags]), if_pos k2, hE.diags]
    unfold vmk
    simp
    rfl
  have c4 : checkGrads (.ok (parts1 [E.noise])) (.ok (parts1 [A.noise])) = .ok (fk.D, vsub E.noise A.noise, E.noise) := by
    unfold checkGrads parts1
    simp only [ok_bind, List.map_cons, List.map_nil, List.sum_cons, List.sum_nil, add_zero, List.flatten_cons, List.flatten_nil, List.append_nil]
    rw [if_pos k3, if_pos k3, hE.noise]
    rfl
  have eE : E.entries = E.kernels.flatten ++ oneByOne rr fk.Q fk.D f ++ E.diags.flatten ++ E.noise := by
    unfold FKGrad.entries
    rw [hE.vecs, vecs_flat]
  have eA : A.entries = A.kernels.flatten ++ oneByOne rr fk.Q fk.D g ++ A.diags.flatten ++ A.noise := by
    unfold FKGrad.entries
    rw [hA.vecs, vecs_flat]
  refine ⟨_, by simp only [mapExcept, c1, c2, c3, c4, ok_bind]; rfl, rfl, ?_, ?_, ?_, ?_, ?_⟩
  · simp only [List.flatMap_cons, List.flatMap_nil, List.append_nil, eE, List.length_append]
    rw [vsub_length k1, vsub_length (by rw [l1.1, l2.1]), vsub_length k2, vsub_length k3, l1.1, l1.2]
    omega
  · simp only [List.flatMap_cons, List.flatMap_nil, List.append_nil, eE, List.length_append, l1.1, l1.2]
    omega
  · rw [eE, eA]
    simp only [List.length_append, l1.2, l2.2]
    omega
  · intro φ
    simp only [List.flatMap_cons, List.flatMap_nil, List.append_nil, List.map_append, List.sum_append, map_vsub]
    rw [eE, eA, List.zip_append (by simp only [List.length_append, l1.2, l2.2]; omega), List.zip_append (by simp only [List.length_append, l1.2, l2.2]; omega),
      List.zip_append k1]
    simp only [List.map_append, List.sum_append]
    rw [sum_order rr fk.Q fk.D f g fun p => φ (p.1 - p.2)]
    ring
  · intro φ
    simp only [List.flatMap_cons, List.flatMap_nil, List.append_nil, List.map_append, List.sum_append]
    rw [eE]
    simp only [List.map_append, List.sum_append]
    have hz : ∀ u : List ℝ, ((u.zip u).map fun p => φ p.1) = u.map φ := fun u => by
      rw [List.zip_eq_zipWith, List.zipWith_self, List.map_map]
      rfl
    have := sum_order rr fk.Q fk.D f f fun p => φ p.1
    rw [hz, hz] at this
    rw [this]
    ring

end Verif
