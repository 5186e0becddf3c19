import Verif.Proofs.GridKernel
import Verif.Props.Kern
import Verif.Props.Autogrid
import Verif.Props.Util

/-! C32: the inducing grid. -/

namespace Verif

theorem cartesian_eq (axes : List (List ℝ)) : cartesianProduct axes = vmk (axes.map List.length).prod fun k =>
    vmk axes.length fun p => (axes.getD p []).getD ((unravel (axes.map List.length) k).getD p 0) 0 := by
  unfold cartesianProduct
  rw [indices_eq, vmk, List.map_map]; rfl

theorem laNorm_vsub (P : ℕ) (f g : ℕ → ℝ) : laNorm (vsub (vmk P f) (vmk P g)) = Real.sqrt (∑ p ∈ Finset.range P, (f p - g p) ^ 2) := by
  unfold laNorm vsub vmk
  rw [List.zipWith_map, List.zipWith_self, List.map_map, ← list_sum_range]
  rfl

theorem unravel_zero_getD : ∀ (s : List ℕ) (p : ℕ), (unravel s 0).getD p 0 = 0
  | [], p => by simp [unravel]
  | n :: s, p => by
    cases p with
    | zero => simp [unravel]
    | succ p => simpa [unravel] using unravel_zero_getD s p

theorem prod_pos_of_axes {axes : List (List ℝ)} (h : ∀ a ∈ axes, GoodAxis a) : 0 < (axes.map List.length).prod := by
  refine List.prod_pos fun n hn => ?_
  obtain ⟨a, ha, rfl⟩ := List.mem_map.1 hn
  exact List.length_pos_iff.2 (h a ha).1

theorem gridDists_eq {axes : List (List ℝ)} (h : ∀ a ∈ axes, GoodAxis a) :
    gridDists axes = .ok ⟨axes.map List.length, vmk (axes.map List.length).prod fun k => Real.sqrt
      (∑ p ∈ Finset.range axes.length, ((axes.getD p []).getD ((unravel (axes.map List.length) k).getD p 0) 0 -
        (axes.getD p []).getD 0 0) ^ 2)⟩ := by
  have hpos := prod_pos_of_axes h
  unfold gridDists
  rw [cartesian_eq]
  obtain ⟨n, hn⟩ : ∃ n, (axes.map List.length).prod = n + 1 := ⟨_, (Nat.succ_pred_eq_of_pos hpos).symm⟩
  have e : ∀ F : ℕ → List ℝ, vmk (n + 1) F = F 0 :: vmk n fun k => F (k + 1) := by
    intro F; unfold vmk; rw [List.range_succ_eq_map]; simp
  rw [hn, e]
  simp only
  rw [← e fun k => vmk axes.length fun p => (axes.getD p []).getD ((unravel (axes.map List.length) k).getD p 0) 0]
  congr 2
  unfold vmk
  rw [List.map_map]
  refine List.map_congr_left fun k _ => ?_
  have := laNorm_vsub axes.length (fun p => (axes.getD p []).getD ((unravel (axes.map List.length) k).getD p 0) 0)
    (fun p => (axes.getD p []).getD ((unravel (axes.map List.length) 0).getD p 0) 0)
  simp only [unravel_zero_getD] at this
  simp only [Function.comp_apply, unravel_zero_getD]
  exact this

/-- C32, for any function of the distance: put the function's values at the distances of all grid points from the first one into a
BTTB; the operator is the matrix of the function at all pairwise Euclidean distances of the grid points. -/
theorem C32_grid_function (axes : List (List ℝ)) (hne : axes ≠ []) (hax : ∀ a ∈ axes, GoodAxis a) (f : ℝ → ℝ) :
    ∃ dists M, gridDists axes = .ok dists ∧ dists.shape = axes.map List.length ∧ dists.WF ∧
      gridBttb dists.shape (dists.data.map f) = .ok M ∧
      IsMatrix M (cartesianProduct axes).length (cartesianProduct axes).length fun i j =>
        f (euclid axes.length ((cartesianProduct axes).getD i []) ((cartesianProduct axes).getD j [])) := by
  have hpos := prod_pos_of_axes hax
  have hd := gridDists_eq hax
  set s := axes.map List.length with hs
  have hcl : (cartesianProduct axes).length = s.prod := by rw [cartesian_eq, vmk_length]
  obtain ⟨M, hM, hM'⟩ := isMatrix_bttb (sizes := s) (top := (vmk s.prod fun k => Real.sqrt
      (∑ p ∈ Finset.range axes.length, ((axes.getD p []).getD ((unravel s k).getD p 0) 0 -
        (axes.getD p []).getD 0 0) ^ 2)).map f) hpos (by simpa [hs] using hne) (by simp)
  refine ⟨_, M, hd, rfl, by simp [NDArr.WF], hM, ?_⟩
  rw [hcl]
  refine hM'.congr fun i hi j hj => ?_
  have hr := ravelDiff_lt hi hj
  rw [List.getD_eq_getElem _ _ (by simpa using hr), List.getElem_map]
  congr 1
  rw [vmk_getElem, euclid]
  congr 1
  refine Finset.sum_congr rfl fun p hp => ?_
  have hp := Finset.mem_range.1 hp
  have hbox : inBox s (List.zipWith absDiff (unravel s i) (unravel s j)) := by
    refine inBox_iff.2 ⟨by simp [unravel_length], fun p hp => ?_⟩
    have h1 := (inBox_iff.1 (unravel_inBox hi)).2 p hp
    have h2 := (inBox_iff.1 (unravel_inBox hj)).2 p hp
    have : (List.zipWith absDiff (unravel s i) (unravel s j)).getD p 0 =
        absDiff ((unravel s i).getD p 0) ((unravel s j).getD p 0) := by simp [unravel_length, hp]
    rw [this]; unfold absDiff; split <;> omega
  have hps : p < s.length := by simpa [hs] using hp
  rw [← ravel_absDiff, unravel_ravel hbox]
  have e : (List.zipWith absDiff (unravel s i) (unravel s j)).getD p 0 =
        absDiff ((unravel s i).getD p 0) ((unravel s j).getD p 0) := by simp [unravel_length, hps]
  have h1 := (inBox_iff.1 (unravel_inBox hi)).2 p hps
  have h2 := (inBox_iff.1 (unravel_inBox hj)).2 p hps
  have hsp : s.getD p 0 = (axes.getD p []).length := by
    rw [hs, List.getD_eq_getElem _ _ (by simpa using hp), List.getElem_map, List.getD_eq_getElem _ _ hp]
  rw [hsp] at h1 h2
  rw [e, cartesian_eq, vmk_getD_lt hi, vmk_getD_lt hj, vmk_getD_lt hp, vmk_getD_lt hp]
  obtain ⟨ha0, g0, h, heq⟩ := hax (axes.getD p []) (getD_mem _ hp)
  have hd' : absDiff ((unravel s i).getD p 0) ((unravel s j).getD p 0) < (axes.getD p []).length := by
    unfold absDiff; split <;> omega
  rw [heq _ hd', heq _ h1, heq _ h2, heq 0 (List.length_pos_iff.2 ha0)]
  unfold absDiff
  split
  · rename_i hle; rw [Nat.cast_sub hle]; push_cast; ring
  · rename_i hle; rw [Nat.cast_sub (by omega)]; push_cast; ring

/-- C32 for the kernels: evaluating a kernel on the grid distances and making a BTTB of the result gives the kernel matrix of all
pairs of grid points. -/
theorem C32_grid_kernel (axes : List (List ℝ)) (hne : axes ≠ []) (hax : ∀ a ∈ axes, GoodAxis a) (k : Kern) (hk : k.Valid) :
    ∃ dists v M, gridDists axes = .ok dists ∧ k.fromDist (.arr dists) = .ok (.arr v) ∧ gridBttb v.shape v.data = .ok M ∧
      IsMatrix M (cartesianProduct axes).length (cartesianProduct axes).length fun i j =>
        k.doc (euclid axes.length ((cartesianProduct axes).getD i []) ((cartesianProduct axes).getD j [])) := by
  obtain ⟨dists, M, h1, h2, h3, h4, h5⟩ := C32_grid_function axes hne hax k.doc
  exact ⟨dists, _, M, h1, fromDist_arr k hk dists (by rw [h2]; simpa using hne), h4, h5⟩

/-- C32 for the grids the model builds: `autogrid` always yields such axes. -/
theorem C32_autogrid (Xs : List (Arr2 ℝ)) (P : ℕ) (hP : 0 < P) (lo hi m : GridArg) (hne : Xs ≠ [])
    (hX : ∀ X ∈ Xs, 0 < X.rows ∧ X.cols = P) (hlo : lo.fits P) (hhi : hi.fits P) (hm : m.fits P)
    (hmpos : ∀ v, m.vals = some v → ∀ p < P, ∃ k : ℕ, 0 < k ∧ v.getD p 0 = k)
    (hnd : ∀ p < P, NonDegenerate Xs lo hi p) (k : Kern) (hk : k.Valid) :
    ∃ r dists v M, autogrid Xs lo hi m = .ok r ∧ r.grids.length = P ∧ gridDists r.grids = .ok dists ∧
      k.fromDist (.arr dists) = .ok (.arr v) ∧ gridBttb v.shape v.data = .ok M ∧
      IsMatrix M (cartesianProduct r.grids).length (cartesianProduct r.grids).length fun i j =>
        k.doc (euclid P ((cartesianProduct r.grids).getD i []) ((cartesianProduct r.grids).getD j [])) := by
  obtain ⟨r, h1, h2, h3⟩ := C21_autogrid_brackets Xs P lo hi m hne hX hlo hhi hm hmpos hnd
  have hax : ∀ a ∈ r.grids, GoodAxis a := by
    intro a ha
    obtain ⟨p, hp, rfl⟩ := List.getElem_of_mem ha
    obtain ⟨g, hg, g0, h, k, h4, h5, h6, h7, -⟩ := h3 p (h2 ▸ hp)
    rw [List.getD_eq_getElem _ _ hp] at hg
    rw [← hg]
    exact ⟨by intro e; rw [e] at h7; simp at h7, g0, h, h5⟩
  obtain ⟨dists, v, M, h4, h5, h6, h7⟩ := C32_grid_kernel r.grids (by
    intro e; rw [e] at h2; simp at h2; omega) hax k hk
  rw [h2] at h7
  exact ⟨r, dists, v, M, h1, h2, h4, h5, h6, h7⟩

/-- a 2 × 3 grid with different spacings -/
example : ∃ axes : List (List ℝ), axes = [[0, 1], [1, 3, 5]] ∧ axes ≠ [] ∧ ∀ a ∈ axes, GoodAxis a := by
  refine ⟨_, rfl, by simp, ?_⟩
  intro a ha
  simp only [List.mem_cons, List.not_mem_nil, or_false] at ha
  rcases ha with rfl | rfl
  · refine ⟨by simp, 0, 1, fun i hi => ?_⟩
    have : i = 0 ∨ i = 1 := by simp at hi; omega
    rcases this with rfl | rfl <;> simp
  · refine ⟨by simp, 1, 2, fun i hi => ?_⟩
    have : i = 0 ∨ i = 1 ∨ i = 2 := by simp at hi; omega
    rcases this with rfl | rfl | rfl <;> norm_num

end Verif
