import Verif.Model.Mean
import Verif.Props.MultiGP
import Mathlib.Analysis.Calculus.Deriv.Mul
import Verif.Props.Predict

/-! C57: mean functions. -/

namespace Verif

/-- one one-dimensional array of inputs per output -/
def MeanInputs (D : ℕ) (Xs : List (NDArr ℝ)) : Prop := Xs.length = D ∧ ∀ X ∈ Xs, X.ndim = 1

theorem validateInputs_iff (D : ℕ) (Xs : List (NDArr ℝ)) : (MeanInputs D Xs → validateInputs D Xs = .ok ()) ∧ (¬ MeanInputs D Xs → validateInputs D Xs = .error .valueError) := by
  unfold validateInputs MeanInputs
  constructor
  · rintro ⟨h1, h2⟩
    rw [if_neg (not_not.2 h1), if_pos h2]
  · intro h
    by_cases h1 : Xs.length = D
    · rw [if_neg (not_not.2 h1), if_neg fun h2 => h ⟨h1, h2⟩]
    · rw [if_pos h1]

theorem zip_getD {α β : Type} {l : List α} {l' : List β} {i : ℕ} (h : i < l.length) (h' : i < l'.length) (a : α) (b : β) :
    (l.zip l').getD i (a, b) = (l.getD i a, l'.getD i b) := by
  rw [List.getD_eq_getElem _ _ (by rw [List.length_zip]; omega), List.getElem_zip, List.getD_eq_getElem _ _ h, List.getD_eq_getElem _ _ h']

theorem len_of_ndim {X : NDArr ℝ} (h : X.ndim = 1) : X.len = .ok (X.shape.headD 0) := by
  unfold NDArr.ndim at h
  unfold NDArr.len
  obtain ⟨n, e⟩ := List.length_eq_one_iff.1 h
  rw [e]
  rfl

/-- C57: only inputs of dimension 1 are supported, for both mean functions. -/
theorem C57_input_dim (p D : ℕ) (c0 : Option (NDArr ℝ)) (h : p ≠ 1) : zeroMeanNew p D = .error .assertionError ∧ constantMeanNew p D c0 = .error .assertionError := by
  unfold zeroMeanNew constantMeanNew meanInit
  rw [if_neg h]
  exact ⟨rfl, rfl⟩

/-- C57: `Zero(1, D).f` gives a zero for every point; `mean_gradient` is empty as there are no parameters; inputs that are not one one-dimensional array per
output raise ValueError. -/
theorem C57_zero (D : ℕ) : ∃ z, zeroMeanNew 1 D = .ok z ∧ (∀ Xs, z.meanGradient Xs = []) ∧
    (∀ Xs, MeanInputs D Xs → z.f Xs = .ok (Xs.map fun X => List.replicate (X.shape.headD 0) 0)) ∧ ∀ Xs, ¬ MeanInputs D Xs → z.f Xs = .error .valueError := by
  refine ⟨⟨D⟩, rfl, fun _ => rfl, fun Xs h => ?_, fun Xs h => ?_⟩
  · unfold ZeroMean.f
    rw [(validateInputs_iff D Xs).1 h]
    refine mapExcept_ok (g := fun X : NDArr ℝ => List.replicate (X.shape.headD 0) (0 : ℝ)) fun X hX => ?_
    rw [len_of_ndim (h.2 X hX)]
    rfl
  · unfold ZeroMean.f
    rw [(validateInputs_iff D Xs).2 h]
    rfl

/-- C57: `Constant(1, D, c0)` needs a `c0` of shape `(D,)`, or none, which means zeros. -/
theorem C57_constant_new (D : ℕ) : constantMeanNew 1 D none = .ok ⟨D, List.replicate D 0⟩ ∧
    (∀ c0 : NDArr ℝ, c0.shape = [D] → constantMeanNew 1 D (some c0) = .ok ⟨D, c0.data⟩) ∧ ∀ c0 : NDArr ℝ, c0.shape ≠ [D] → constantMeanNew 1 D (some c0) = .error .valueError := by
  unfold constantMeanNew meanInit
  refine ⟨?_, fun c0 h => ?_, fun c0 h => ?_⟩
  · simp only [if_true, ok_bind, Option.getD_none, ne_eq, not_true_eq_false, if_false]; rfl
  · simp only [if_true, ok_bind, Option.getD_some, ne_eq, h, not_true_eq_false, if_false]; rfl
  · simp only [if_true, ok_bind, Option.getD_some, ne_eq, h, not_false_eq_true]

theorem constant_f {m : ConstantMean} (hc : m.c.length = m.outputDim) {Xs : List (NDArr ℝ)} (h : MeanInputs m.outputDim Xs) :
    m.f Xs = .ok ((Xs.zip m.c).map fun p => List.replicate (p.1.shape.headD 0) p.2) := by
  unfold ConstantMean.f
  rw [(validateInputs_iff _ Xs).1 h, ok_bind]
  refine mapExcept_ok (g := fun p : NDArr ℝ × ℝ => List.replicate (p.1.shape.headD 0) p.2) fun p hp => ?_
  rw [len_of_ndim (h.2 p.1 (List.of_mem_zip hp).1), ok_bind, List.map_replicate, one_mul]
  rfl

/-- C57: with an offset per output, `Constant.f` repeats the offset of each output for each of its points, and raises ValueError for other inputs. -/
theorem C57_constant (m : ConstantMean) (hc : m.c.length = m.outputDim) (Xs : List (NDArr ℝ)) :
    (MeanInputs m.outputDim Xs → ∃ r, m.f Xs = .ok r ∧ r.length = m.outputDim ∧ ∀ d < m.outputDim,
      r.getD d [] = List.replicate ((Xs.getD d ⟨[], []⟩).shape.headD 0) (m.c.getD d 0)) ∧
    (¬ MeanInputs m.outputDim Xs → m.f Xs = .error .valueError) := by
  constructor
  · intro h
    refine ⟨_, constant_f hc h, by simp [h.1, hc], fun d hd => ?_⟩
    have hd1 : d < (Xs.zip m.c).length := by rw [List.length_zip, h.1, hc]; omega
    rw [map_getD_lt hd1 _ _ (⟨[], []⟩, 0)]
    rw [zip_getD (by rw [h.1]; exact hd) (by rw [hc]; exact hd)]
  · intro h
    unfold ConstantMean.f
    rw [(validateInputs_iff _ Xs).2 h]
    rfl

/-- C57: `mean_gradient` has, for every offset `i`, output `j` and point `k`, the derivative of the mean at that point with respect to that offset. -/
theorem C57_gradient (m : ConstantMean) (hc : m.c.length = m.outputDim) (Xs : List (NDArr ℝ)) (h : MeanInputs m.outputDim Xs) :
    ∃ G, m.meanGradient Xs = .ok G ∧ G.length = m.outputDim ∧ ∀ i < m.outputDim, (G.getD i []).length = m.outputDim ∧
      ∀ j < m.outputDim, ((G.getD i []).getD j []).length = (Xs.getD j ⟨[], []⟩).shape.headD 0 ∧
        ∀ k < (Xs.getD j ⟨[], []⟩).shape.headD 0,
          HasDerivAt (fun t => ((((⟨m.outputDim, m.c.set i t⟩ : ConstantMean).f Xs).toOption.getD []).getD j []).getD k 0) (((G.getD i []).getD j []).getD k 0) (m.c.getD i 0) := by
  have hG : m.meanGradient Xs = .ok ((List.range m.c.length).map fun i => ((List.range Xs.length).zip Xs).map fun jX : ℕ × NDArr ℝ =>
      if i = jX.1 then List.replicate (jX.2.shape.headD 0) (1 : ℝ) else List.replicate (jX.2.shape.headD 0) 0) := by
    unfold ConstantMean.meanGradient
    refine mapExcept_ok (g := fun i => ((List.range Xs.length).zip Xs).map fun jX : ℕ × NDArr ℝ =>
      if i = jX.1 then List.replicate (jX.2.shape.headD 0) (1 : ℝ) else List.replicate (jX.2.shape.headD 0) 0) fun i _ => ?_
    refine mapExcept_ok (g := fun jX : ℕ × NDArr ℝ => if i = jX.1 then List.replicate (jX.2.shape.headD 0) (1 : ℝ) else List.replicate (jX.2.shape.headD 0) 0) fun jX hj => ?_
    rw [len_of_ndim (h.2 jX.2 (List.of_mem_zip hj).2), ok_bind]
    rfl
  refine ⟨_, hG, by simp [hc], fun i hi => ?_⟩
  have e1 : ((List.range m.c.length).map fun i => ((List.range Xs.length).zip Xs).map fun jX : ℕ × NDArr ℝ =>
      if i = jX.1 then List.replicate (jX.2.shape.headD 0) (1 : ℝ) else List.replicate (jX.2.shape.headD 0) 0).getD i [] =
      ((List.range Xs.length).zip Xs).map fun jX : ℕ × NDArr ℝ => if i = jX.1 then List.replicate (jX.2.shape.headD 0) (1 : ℝ) else List.replicate (jX.2.shape.headD 0) 0 := by
    rw [map_getD_lt (by simpa [hc] using hi) _ _ 0]
    rw [List.getD_eq_getElem _ _ (by simpa [hc] using hi), List.getElem_range]
  rw [e1]
  refine ⟨by simp [h.1], fun j hj => ?_⟩
  have hj1 : j < Xs.length := by rw [h.1]; exact hj
  have e2 : (((List.range Xs.length).zip Xs).map fun jX : ℕ × NDArr ℝ => if i = jX.1 then List.replicate (jX.2.shape.headD 0) (1 : ℝ) else List.replicate (jX.2.shape.headD 0) 0).getD j [] =
      if i = j then List.replicate ((Xs.getD j ⟨[], []⟩).shape.headD 0) (1 : ℝ) else List.replicate ((Xs.getD j ⟨[], []⟩).shape.headD 0) 0 := by
    rw [map_getD_lt (by simpa using hj1) _ _ (0, ⟨[], []⟩), zip_getD (by simpa using hj1) hj1, List.getD_eq_getElem _ _ (by simpa using hj1), List.getElem_range]
  rw [e2]
  refine ⟨by split_ifs <;> simp, fun k hk => ?_⟩
  have e3 : ∀ t, (((⟨m.outputDim, m.c.set i t⟩ : ConstantMean).f Xs).toOption.getD []).getD j [] = List.replicate ((Xs.getD j ⟨[], []⟩).shape.headD 0) ((m.c.set i t).getD j 0) := by
    intro t
    obtain ⟨r, h1, -, h3⟩ := (C57_constant ⟨m.outputDim, m.c.set i t⟩ (by simpa using hc) Xs).1 h
    rw [h1]
    exact h3 j hj
  simp only [e3]
  have rep : ∀ x : ℝ, (List.replicate ((Xs.getD j ⟨[], []⟩).shape.headD 0) x).getD k 0 = x := fun x => List.getD_replicate _ hk
  by_cases hij : i = j
  · subst hij
    simp only [if_true, rep]
    have : ∀ t, (m.c.set i t).getD i 0 = t := fun t => by
      rw [List.getD_eq_getElem _ _ (by simpa [hc] using hi), List.getElem_set_self]
    simp only [this]
    exact hasDerivAt_id _
  · simp only [if_neg hij, rep]
    have : ∀ t, (m.c.set i t).getD j 0 = m.c.getD j 0 := fun t => by
      rw [List.getD_eq_getElem?_getD, List.getElem?_set_ne hij, ← List.getD_eq_getElem?_getD]
    simp only [this]
    exact hasDerivAt_const _ _

/-- three outputs with two, no and one point -/
example : ∃ m, constantMeanNew 1 3 (some ⟨[3], [4, 5, 6]⟩) = .ok m ∧ m.f [⟨[2], [7, 8]⟩, ⟨[0], []⟩, ⟨[1], [9]⟩] = .ok [[4, 4], [], [6]] := by
  refine ⟨⟨3, [4, 5, 6]⟩, (C57_constant_new 3).2.1 _ rfl, ?_⟩
  rw [constant_f rfl ⟨rfl, by simp [NDArr.ndim]⟩]
  rfl

end Verif
