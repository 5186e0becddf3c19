import Verif.Spec.MultiGP
import Verif.Proofs.Ppf
import Verif.Proofs.GridKernel
import Verif.Props.Likelihood2

/-! C41 (normalisation), C42 (validation), C47 (quantiles). -/

namespace Verif

/-! ### C41 -/

theorem arrMean_eq (l : List ℝ) : arrMean l = meanOf l := by
  unfold arrMean meanOf
  congr 1
  conv_lhs => rw [← vmk_self l 0]
  unfold vmk
  rw [list_sum_range]

theorem map_eq_vmk {α β : Type} (l : List α) (d : α) (f : α → β) : l.map f = vmk l.length fun i => f (l.getD i d) := by
  conv_lhs => rw [← vmk_self l d]
  simp [vmk, List.map_map, Function.comp]

theorem arrStd_eq (l : List ℝ) : arrStd l = sdOf l := by
  unfold arrStd sdOf varOf
  congr 1
  rw [arrMean, arrMean_eq, map_eq_vmk l 0]
  unfold vmk
  rw [list_sum_range]
  simp

theorem sum_getD_map (l : List ℝ) (f : ℝ → ℝ) : ∑ i ∈ Finset.range (l.map f).length, (l.map f).getD i 0 = ∑ i ∈ Finset.range l.length, f (l.getD i 0) := by
  rw [List.length_map]
  refine Finset.sum_congr rfl fun i hi => ?_
  have hi := Finset.mem_range.1 hi
  rw [List.getD_eq_getElem _ _ (by simpa using hi), List.getElem_map, List.getD_eq_getElem _ _ hi]

theorem meanOf_affine (l : List ℝ) (h : l ≠ []) (a b : ℝ) : meanOf (l.map fun x => x * a + b) = meanOf l * a + b := by
  unfold meanOf
  rw [sum_getD_map, List.length_map, Finset.sum_add_distrib, ← Finset.sum_mul, Finset.sum_const, Finset.card_range, nsmul_eq_mul]
  have : (l.length : ℝ) ≠ 0 := by exact_mod_cast (List.length_pos_iff.2 h).ne'
  field_simp

theorem varOf_affine (l : List ℝ) (h : l ≠ []) (a b : ℝ) : varOf (l.map fun x => x * a + b) = varOf l * a ^ 2 := by
  unfold varOf
  rw [meanOf_affine l h, List.length_map, ← mul_div_right_comm, Finset.sum_mul]
  congr 1
  refine Finset.sum_congr rfl fun i hi => ?_
  have hi := Finset.mem_range.1 hi
  rw [List.getD_eq_getElem _ _ (by simpa using hi), List.getElem_map, List.getD_eq_getElem _ _ hi]
  ring

theorem sdOf_nonneg (l : List ℝ) : 0 ≤ sdOf l := Real.sqrt_nonneg _

/-- C41: after `scale_by(Y)` (where `none` entries are invalid and ignored) with at least two different values, `normalize` and
`inverse_mean` are inverse to each other on all arrays; the data are normalised to mean 0 and standard deviation 1. -/
theorem C41_roundtrip (n : Norm) (Y : List (Option ℝ)) (hY : sdOf Y.reduceOption ≠ 0) :
    (∀ X, ∃ Z, (n.scaleBy Y).normalize X = .ok Z ∧ (n.scaleBy Y).inverseMean Z = .ok X) ∧
    (∀ Z, ∃ X, (n.scaleBy Y).inverseMean Z = .ok X ∧ (n.scaleBy Y).normalize X = .ok Z) ∧
    ∃ Z, (n.scaleBy Y).normalize Y.reduceOption = .ok Z ∧ Z.length = Y.reduceOption.length ∧ meanOf Z = 0 ∧ sdOf Z = 1 := by
  set F := Y.reduceOption with hF
  have hs : (n.scaleBy Y) = ⟨some (meanOf F), some (sdOf F)⟩ := by
    unfold Norm.scaleBy
    rw [← hF, arrMean_eq, arrStd_eq]
  rw [hs]
  simp only [Norm.normalize, Norm.inverseMean, Except.ok.injEq, exists_eq_left']
  have hF0 : F ≠ [] := by
    rintro h
    rw [h] at hY
    exact hY (by simp [sdOf, varOf])
  refine ⟨fun X => ?_, fun Z => ?_, by simp, ?_, ?_⟩
  · rw [List.map_map]
    conv_rhs => rw [← List.map_id' X]
    refine List.map_congr_left fun x _ => ?_
    simp only [Function.comp]
    field_simp
    ring
  · rw [List.map_map]
    conv_rhs => rw [← List.map_id' Z]
    refine List.map_congr_left fun x _ => ?_
    simp only [Function.comp]
    field_simp
    ring
  · have : (F.map fun y => (y - meanOf F) / sdOf F) = F.map fun y => y * (1 / sdOf F) + (-meanOf F / sdOf F) :=
      List.map_congr_left fun y _ => by ring
    rw [this, meanOf_affine F hF0]
    ring
  · have : (F.map fun y => (y - meanOf F) / sdOf F) = F.map fun y => y * (1 / sdOf F) + (-meanOf F / sdOf F) :=
      List.map_congr_left fun y _ => by ring
    have hv : 0 ≤ varOf F := by
      unfold varOf
      exact div_nonneg (Finset.sum_nonneg fun i _ => sq_nonneg _) (Nat.cast_nonneg _)
    have hsq : sdOf F ^ 2 = varOf F := Real.sq_sqrt hv
    rw [this, sdOf, varOf_affine F hF0, ← hsq]
    rw [show sdOf F ^ 2 * (1 / sdOf F) ^ 2 = 1 by field_simp]
    exact Real.sqrt_one

/-- C41: `inverse_variance` is the variance of what `inverse_mean` returns -/
theorem C41_variance (n : Norm) (Y : List (Option ℝ)) (Z : List ℝ) (hZ : Z ≠ []) (vs : List ℝ) :
    (n.scaleBy Y).inverseVariance vs = .ok (vs.map fun v => v * sdOf Y.reduceOption ^ 2) ∧
    ∃ X, (n.scaleBy Y).inverseMean Z = .ok X ∧ (n.scaleBy Y).inverseVariance [varOf Z] = .ok [varOf X] := by
  have hs : (n.scaleBy Y) = ⟨some (meanOf Y.reduceOption), some (sdOf Y.reduceOption)⟩ := by
    unfold Norm.scaleBy
    rw [arrMean_eq, arrStd_eq]
  rw [hs]
  simp only [Norm.inverseVariance, Norm.inverseMean, Except.ok.injEq, exists_eq_left', true_and, List.map_cons, List.map_nil]
  rw [varOf_affine Z hZ]

/-- C41: before `scale_by`, `normalize` raises AttributeError (and the inverses TypeError) -/
theorem C41_unscaled (Y : List ℝ) : Norm.new.normalize Y = .error .attributeError ∧ Norm.new.inverseMean Y = .error .typeError ∧
    Norm.new.inverseVariance Y = .error .typeError := ⟨rfl, rfl, rfl⟩

/-- hypothesis of C41: data with an invalid entry -/
example : sdOf ([some 1, none, some 3] : List (Option ℝ)).reduceOption ≠ 0 := by
  have : ([some 1, none, some 3] : List (Option ℝ)).reduceOption = [1, 3] := rfl
  rw [this]
  have hv : varOf [1, 3] = 1 := by
    simp [varOf, meanOf, Finset.sum_range_succ]
    norm_num
  rw [sdOf, hv]
  simp

/-! ### C42 -/

theorem mapExcept_error {α β : Type} {f : α → Except PyErr β} {l : List α} {e : PyErr} (h : mapExcept f l = .error e) : ∃ x ∈ l, f x = .error e := by
  induction l with
  | nil => cases h
  | cons a l ih =>
    simp only [mapExcept] at h
    cases ha : f a with
    | error e' =>
      rw [ha] at h
      cases h
      exact ⟨a, by simp, ha⟩
    | ok y =>
      rw [ha] at h
      cases hl : mapExcept f l with
      | error e' =>
        rw [hl] at h
        cases h
        obtain ⟨x, h1, h2⟩ := ih hl
        exact ⟨x, by simp [h1], h2⟩
      | ok ys => rw [hl] at h; cases h

theorem mapExcept_exists_iff {α β : Type} {f : α → Except PyErr β} {l : List α} : (∃ ys, mapExcept f l = .ok ys) ↔ ∀ x ∈ l, ∃ y, f x = .ok y := by
  constructor
  · rintro ⟨ys, h⟩ x hx
    induction l generalizing ys with
    | nil => simp at hx
    | cons a l ih =>
      simp only [mapExcept, bind_ok, pure_ok] at h
      obtain ⟨y, hy, ys', hys, -⟩ := h
      rcases List.mem_cons.1 hx with rfl | hx
      · exact ⟨y, hy⟩
      · exact ih _ hys hx
  · intro h
    obtain ⟨ys, h1, -⟩ := mapExcept_forall2 (R := fun _ _ => True) fun x hx => (h x hx).imp fun y hy => ⟨hy, trivial⟩
    exact ⟨ys, h1⟩

theorem checkPair_ok {X Y : NDArr ℝ} : (∃ u, checkPair (X, Y) = .ok u) ↔ ∃ n, Y.shape = [n] ∧ ((∃ P, X.shape = [n, P]) ∨ X.shape = [n]) := by
  unfold checkPair NDArr.len NDArr.ndim
  rcases hX : X.shape with _ | ⟨a, _ | ⟨b, _ | ⟨c, s⟩⟩⟩ <;> rcases hY : Y.shape with _ | ⟨a', _ | ⟨b', s'⟩⟩ <;>
    simp only [ok_bind, List.length_cons, List.length_nil] <;> try simp [Bind.bind, Except.bind]

theorem checkPair_err {X Y : NDArr ℝ} (hX : X.shape ≠ []) (hY : Y.shape ≠ []) {e : PyErr} (h : checkPair (X, Y) = .error e) : e = .valueError := by
  unfold checkPair NDArr.len NDArr.ndim at h
  rcases hX' : X.shape with _ | ⟨a, s⟩
  · exact absurd hX' hX
  rcases hY' : Y.shape with _ | ⟨a', s'⟩
  · exact absurd hY' hY
  simp only [hX', hY', ok_bind] at h
  split_ifs at h <;> cases h <;> rfl

theorem inputDimOf_ok {Xs : List (NDArr ℝ)} {p : ℕ} : inputDimOf Xs = .ok p ↔
    (∀ X ∈ Xs, 1 < X.ndim → X.shape.getD 1 0 = p) ∧ ((∀ X ∈ Xs, ¬ 1 < X.ndim) → p = 1) := by
  have hmem : ∀ q, q ∈ dimSet Xs ↔ ∃ X ∈ Xs, 1 < X.ndim ∧ X.shape.getD 1 0 = q := by
    intro q
    simp only [dimSet, List.mem_dedup, List.mem_map, List.mem_filter, decide_eq_true_eq]
    constructor
    · rintro ⟨X, ⟨h1, h2⟩, h3⟩; exact ⟨X, h1, h2, h3⟩
    · rintro ⟨X, h1, h2, h3⟩; exact ⟨X, ⟨h1, h2⟩, h3⟩
  have hnd : (dimSet Xs).Nodup := List.nodup_dedup _
  unfold inputDimOf
  by_cases h0 : dimSet Xs = []
  · have hno : ∀ X ∈ Xs, ¬ 1 < X.ndim := by
      intro X hX hlt
      have := (hmem _).2 ⟨X, hX, hlt, rfl⟩
      rw [h0] at this
      simp at this
    simp only [if_pos h0, Except.ok.injEq]
    constructor
    · rintro rfl
      exact ⟨fun X hX hlt => absurd hlt (hno X hX), fun _ => rfl⟩
    · rintro ⟨-, h⟩
      exact (h hno).symm
  · simp only [if_neg h0]
    rcases hd : dimSet Xs with _ | ⟨q, _ | ⟨q', t⟩⟩
    · exact absurd hd h0
    · simp only [Except.ok.injEq]
      rw [hd] at hmem
      simp only [List.mem_singleton] at hmem
      obtain ⟨X0, h1, h2, h3⟩ := (hmem q).1 rfl
      constructor
      · rintro rfl
        exact ⟨fun X hX hlt => (hmem _).2 ⟨X, hX, hlt, rfl⟩, fun h => absurd h2 (h X0 h1)⟩
      · rintro ⟨h, -⟩
        rw [← h X0 h1 h2, h3]
    · simp only [reduceCtorEq, false_iff, not_and]
      intro h
      exfalso
      rw [hd] at hmem hnd
      obtain ⟨X, a1, a2, a3⟩ := (hmem q).1 (by simp)
      obtain ⟨X', b1, b2, b3⟩ := (hmem q').1 (by simp)
      have : q = q' := by rw [← a3, ← b3, h X a1 a2, h X' b1 b2]
      subst this
      simp at hnd

theorem inputDimOf_err {Xs : List (NDArr ℝ)} {e : PyErr} (h : inputDimOf Xs = .error e) : e = .valueError := by
  unfold inputDimOf at h
  generalize (if dimSet Xs = [] then [1] else dimSet Xs) = l at h
  rcases l with _ | ⟨a, _ | ⟨b, t⟩⟩ <;> simp at h
  all_goals exact h.symm

theorem checkStd_ok {Y : NDArr ℝ} : (∃ u, checkStd Y = .ok u) ↔ Y.data = [] ∨ sdOf Y.data ≠ 0 := by
  unfold checkStd
  rw [arrStd_eq]
  split_ifs with h
  · simp [h.1, h.2]
  · simp only [exists_const, true_iff, Except.ok.injEq]
    by_contra hc
    push Not at hc
    exact h hc

theorem padDim_ok {p : ℕ} {X : NDArr ℝ} {n : ℕ} (h : PointsShape X n p) : padDim p X = .ok ⟨n, p, X.data⟩ := by
  unfold padDim
  rcases h with ⟨h, rfl⟩ | h <;> simp [h]

theorem padDim_iff {p : ℕ} {X : NDArr ℝ} : (∃ A, padDim p X = .ok A) ↔ ∃ n, PointsShape X n p := by
  constructor
  · rintro ⟨A, h⟩
    unfold padDim at h
    unfold PointsShape
    rcases hX : X.shape with _ | ⟨a, _ | ⟨b, _ | ⟨c, s⟩⟩⟩ <;> rw [hX] at h
    · cases h
    · simp only at h
      split_ifs at h with h'
      exact ⟨a, .inl ⟨rfl, (not_not.1 h').symm⟩⟩
    · simp only at h
      split_ifs at h with h'
      exact ⟨a, .inr (by rw [not_not.1 h'])⟩
    · cases h
  · rintro ⟨n, h⟩
    exact ⟨_, padDim_ok h⟩

theorem padDim_err {p : ℕ} {X : NDArr ℝ} (hX : X.shape ≠ []) {e : PyErr} (h : padDim p X = .error e) : e = .valueError := by
  unfold padDim at h
  rcases hX' : X.shape with _ | ⟨a, _ | ⟨b, _ | ⟨c, s⟩⟩⟩ <;> rw [hX'] at h
  · exact absurd hX' hX
  all_goals simp only at h
  · split_ifs at h; cases h; rfl
  · split_ifs at h; cases h; rfl
  · cases h; rfl

theorem getD_zip {α β : Type} {l : List α} {m : List β} {i : ℕ} (hl : i < l.length) (hm : i < m.length) (a : α) (b : β) :
    (l.getD i a, m.getD i b) ∈ l.zip m := by
  rw [List.getD_eq_getElem _ _ hl, List.getD_eq_getElem _ _ hm]
  have : i < (l.zip m).length := by simp; omega
  rw [← List.getElem_zip (h := this)]
  exact List.getElem_mem _

theorem mem_getD {α : Type} {l : List α} {x : α} (h : x ∈ l) (d : α) : ∃ i < l.length, l.getD i d = x := by
  obtain ⟨i, hi, rfl⟩ := List.getElem_of_mem h
  exact ⟨i, hi, List.getD_eq_getElem _ _ hi⟩

theorem mem_zip_getD {α β : Type} {l : List α} {m : List β} {x : α × β} (h : x ∈ l.zip m) (a : α) (b : β) :
    ∃ i, i < l.length ∧ i < m.length ∧ l.getD i a = x.1 ∧ m.getD i b = x.2 := by
  obtain ⟨i, hi, rfl⟩ := List.getElem_of_mem h
  have : i < l.length ∧ i < m.length := by simpa using hi
  exact ⟨i, this.1, this.2, by rw [List.getElem_zip, List.getD_eq_getElem _ _ this.1], by rw [List.getElem_zip, List.getD_eq_getElem _ _ this.2]⟩

/-- the norms of the constructor -/
noncomputable def scaledNorms (Ys : List (NDArr ℝ)) : List Norm := Ys.map fun Y => ⟨some (meanOf Y.data), some (sdOf Y.data)⟩

theorem scaledNorms_eq (Ys : List (NDArr ℝ)) :
    (List.replicate Ys.length Norm.new).zipWith (fun n Y => n.scaleBy (Y.data.map some)) Ys = scaledNorms Ys := by
  unfold scaledNorms
  induction Ys with
  | nil => rfl
  | cons Y Ys ih =>
    simp only [List.length_cons, List.replicate_succ, List.zipWith_cons_cons, List.map_cons, ih]
    congr 1
    unfold Norm.scaleBy
    rw [arrMean_eq, arrStd_eq]
    have : (Y.data.map some).reduceOption = Y.data := by
      simp [List.reduceOption]
    rw [this]

theorem normalize_all (Ys : List (NDArr ℝ)) : mapExcept (fun nY : Norm × NDArr ℝ => nY.1.normalize nY.2.data) ((scaledNorms Ys).zip Ys) =
    .ok (Ys.map fun Y => Y.data.map fun y => (y - meanOf Y.data) / sdOf Y.data) := by
  unfold scaledNorms
  induction Ys with
  | nil => rfl
  | cons Y Ys ih =>
    simp only [List.map_cons, List.zip_cons_cons, mapExcept]
    rw [ih]
    rfl

theorem padDims_dataset {Xs : List (NDArr ℝ)} {P : ℕ} (h : ∀ X ∈ Xs, ∃ n, PointsShape X n P) :
    padDims P Xs = .ok (Xs.map fun X => ⟨X.shape.headD 0, P, X.data⟩) := by
  refine mapExcept_ok fun X hX => ?_
  obtain ⟨n, hn⟩ := h X hX
  rw [padDim_ok hn]
  rcases hn with ⟨h, -⟩ | h <;> rw [h] <;> rfl

theorem Dataset.points {Xs Ys : List (NDArr ℝ)} {P : ℕ} (h : Dataset Xs Ys P) : ∀ X ∈ Xs, ∃ n, PointsShape X n P := by
  intro X hX
  obtain ⟨i, hi, rfl⟩ := mem_getD hX ⟨[], []⟩
  obtain ⟨n, -, h2⟩ := h.shape i hi
  exact ⟨n, h2⟩

theorem validateIO_ok {Xs Ys : List (NDArr ℝ)} {P : ℕ} (h : Dataset Xs Ys P) : validateIO Xs Ys = .ok (P, Xs.length) := by
  unfold validateIO
  rw [if_neg h.nonempty, if_neg (not_not.2 h.len)]
  obtain ⟨us, hu⟩ := mapExcept_exists_iff.2 (fun XY hXY => by
    obtain ⟨i, h1, h2, h3, h4⟩ := mem_zip_getD hXY ⟨[], []⟩ ⟨[], []⟩
    obtain ⟨n, a1, a2⟩ := h.shape i h1
    rw [h3] at a2
    rw [h4] at a1
    rcases XY with ⟨X, Y⟩
    exact checkPair_ok.2 ⟨n, a1, a2.elim (fun e => .inr e.1) fun e => .inl ⟨_, e⟩⟩ : ∀ XY ∈ Xs.zip Ys, ∃ u, checkPair XY = .ok u)
  rw [hu, ok_bind]
  have hd : inputDimOf Xs = .ok P := by
    rw [inputDimOf_ok]
    refine ⟨fun X hX hlt => ?_, fun hno => ?_⟩
    · obtain ⟨n, ⟨e, -⟩ | e⟩ := h.points X hX
      · simp [NDArr.ndim, e] at hlt
      · simp [e]
    · obtain ⟨X, hX⟩ := List.exists_mem_of_ne_nil _ h.nonempty
      obtain ⟨n, ⟨-, e⟩ | e⟩ := h.points X hX
      · exact e
      · exact absurd (by simp [NDArr.ndim, e]) (hno X hX)
  rw [hd, ok_bind]
  obtain ⟨vs, hv⟩ := mapExcept_exists_iff.2 (fun Y hY => checkStd_ok.2 (h.spread Y hY))
  rw [hv, ok_bind]
  rfl

theorem ok_of_multiGP {Xs Ys : List (NDArr ℝ)} {normalize : Bool} {gp : MultiGP} (h : multiGPNew Xs Ys normalize = .ok gp) : Dataset Xs Ys gp.inputDim := by
  unfold multiGPNew at h
  simp only [bind_ok] at h
  obtain ⟨⟨p, d⟩, h1, h2⟩ := h
  unfold validateIO at h1
  by_cases e1 : Xs = []
  · rw [if_pos e1] at h1; cases h1
  rw [if_neg e1] at h1
  by_cases e2 : Xs.length ≠ Ys.length
  · rw [if_pos e2] at h1; cases h1
  rw [if_neg e2] at h1
  simp only [bind_ok, pure_ok] at h1
  obtain ⟨us, a1, q, a2, vs, a3, a4⟩ := h1
  cases a4
  have hpad : ∃ Xs', padDims p Xs = .ok Xs' ∧ gp.inputDim = p := by
    cases normalize
    · simp only [Bool.false_eq_true, if_false, bind_ok, pure_ok] at h2
      obtain ⟨Xs', b1, rfl⟩ := h2
      exact ⟨Xs', b1, rfl⟩
    · simp only [if_true, bind_ok, pure_ok] at h2
      obtain ⟨_, -, Xs', b1, rfl⟩ := h2
      exact ⟨Xs', b1, rfl⟩
  obtain ⟨Xs', b1, b2⟩ := hpad
  rw [b2]
  have hpts := mapExcept_exists_iff.1 ⟨Xs', b1⟩
  have hchk := mapExcept_exists_iff.1 ⟨us, a1⟩
  have hstd := mapExcept_exists_iff.1 ⟨vs, a3⟩
  refine ⟨e1, not_not.1 e2, fun i hi => ?_, fun Y hY => checkStd_ok.1 (hstd Y hY)⟩
  have hi' : i < Ys.length := by rw [← not_not.1 e2]; exact hi
  obtain ⟨n, c1, c2⟩ := checkPair_ok.1 (hchk _ (getD_zip hi hi' ⟨[], []⟩ ⟨[], []⟩))
  refine ⟨n, c1, ?_⟩
  obtain ⟨m, d1⟩ := padDim_iff.1 (hpts (Xs.getD i ⟨[], []⟩) (by rw [List.getD_eq_getElem _ _ hi]; exact List.getElem_mem _))
  rcases c2 with ⟨P', c2⟩ | c2 <;> rcases d1 with ⟨d1, d2⟩ | d1 <;> rw [c2] at d1 <;> simp at d1
  · rw [d1.2] at c2; exact .inr c2
  · exact .inl ⟨c2, d2⟩

/-- C42 (all but the documented rejection of repeated inputs, see `C42_repeated_inputs_accepted`): for lists of arrays with at least
one axis, construction succeeds exactly for well-formed datasets and raises ValueError for all others. It stores the inputs as `n × P`
arrays and the outputs, normalised by their own mean and standard deviation if asked to. -/
theorem C42_validation_partial (Xs Ys : List (NDArr ℝ)) (hX : ∀ X ∈ Xs, X.shape ≠ []) (hY : ∀ Y ∈ Ys, Y.shape ≠ []) (normalize : Bool) :
    ((∃ gp, multiGPNew Xs Ys normalize = .ok gp) ↔ ∃ P, Dataset Xs Ys P) ∧
    ((¬ ∃ P, Dataset Xs Ys P) → multiGPNew Xs Ys normalize = .error .valueError) ∧
    ∀ P, Dataset Xs Ys P → ∃ norms, multiGPNew Xs Ys normalize = .ok ⟨P, Xs.length, norms,
        if normalize then Ys.map fun Y => Y.data.map fun y => (y - meanOf Y.data) / sdOf Y.data else Ys.map NDArr.data,
        Xs.map fun X => ⟨X.shape.headD 0, P, X.data⟩⟩ ∧
      norms = if normalize then some (Ys.map fun Y => ⟨some (meanOf Y.data), some (sdOf Y.data)⟩) else none := by
  have h3 : ∀ P, Dataset Xs Ys P → ∃ norms, multiGPNew Xs Ys normalize = .ok ⟨P, Xs.length, norms,
        if normalize then Ys.map fun Y => Y.data.map fun y => (y - meanOf Y.data) / sdOf Y.data else Ys.map NDArr.data,
        Xs.map fun X => ⟨X.shape.headD 0, P, X.data⟩⟩ ∧
      norms = if normalize then some (Ys.map fun Y => ⟨some (meanOf Y.data), some (sdOf Y.data)⟩) else none := by
    intro P h
    unfold multiGPNew
    rw [validateIO_ok h, ok_bind]
    simp only
    rw [padDims_dataset h.points]
    cases normalize
    · exact ⟨_, rfl, rfl⟩
    · simp only [if_true]
      rw [scaledNorms_eq, normalize_all]
      exact ⟨_, rfl, rfl⟩
  have h1 : (∃ gp, multiGPNew Xs Ys normalize = .ok gp) ↔ ∃ P, Dataset Xs Ys P :=
    ⟨fun ⟨gp, h⟩ => ⟨_, ok_of_multiGP h⟩, fun ⟨P, h⟩ => by obtain ⟨n, h, -⟩ := h3 P h; exact ⟨_, h⟩⟩
  refine ⟨h1, fun hno => ?_, h3⟩
  cases hr : multiGPNew Xs Ys normalize with
  | ok gp => exact absurd (h1.1 ⟨gp, hr⟩) hno
  | error e =>
    congr 1
    unfold multiGPNew at hr
    have hv : ∀ e, validateIO Xs Ys = .error e → e = .valueError := by
      intro e he
      unfold validateIO at he
      split_ifs at he
      · cases he; rfl
      · cases he; rfl
      · rcases hc : mapExcept checkPair (Xs.zip Ys) with e' | us
        · rw [hc] at he
          cases he
          obtain ⟨⟨X, Y⟩, h1, h2⟩ := mapExcept_error hc
          exact checkPair_err (hX X (List.of_mem_zip h1).1) (hY Y (List.of_mem_zip h1).2) h2
        · rw [hc, ok_bind] at he
          rcases hd : inputDimOf Xs with e' | p
          · rw [hd] at he
            cases he
            exact inputDimOf_err hd
          · rw [hd, ok_bind] at he
            rcases hs : mapExcept checkStd Ys with e' | vs
            · rw [hs] at he
              cases he
              obtain ⟨Y, -, h2⟩ := mapExcept_error hs
              unfold checkStd at h2
              split_ifs at h2
              cases h2
              rfl
            · rw [hs] at he; cases he
    rcases hc : validateIO Xs Ys with e' | ⟨p, d⟩
    · rw [hc] at hr
      cases hr
      exact hv _ hc
    · rw [hc, ok_bind] at hr
      have hp : ∀ e, padDims p Xs = .error e → e = .valueError := by
        intro e he
        obtain ⟨X, h1, h2⟩ := mapExcept_error he
        exact padDim_err (hX X h1) h2
      cases normalize
      · simp only [Bool.false_eq_true, if_false] at hr
        rcases hq : padDims p Xs with e' | Xs'
        · rw [hq] at hr; cases hr; exact hp _ hq
        · rw [hq] at hr; cases hr
      · simp only [if_true] at hr
        rw [scaledNorms_eq, normalize_all, ok_bind] at hr
        rcases hq : padDims p Xs with e' | Xs'
        · rw [hq] at hr; cases hr; exact hp _ hq
        · rw [hq] at hr; cases hr

/-- a dataset with two outputs and two-dimensional inputs -/
theorem example_dataset : Dataset [⟨[2, 2], [0, 0, 1, 1]⟩, ⟨[2, 2], [0, 1, 1, 0]⟩] [⟨[2], [1, 3]⟩, ⟨[2], [5, 7]⟩] 2 := by
  have hv : ∀ a : ℝ, varOf [a, a + 2] = 1 := by
    intro a
    simp [varOf, meanOf, Finset.sum_range_succ]
    ring
  refine ⟨by simp, rfl, fun d hd => ?_, fun Y hY => .inr ?_⟩
  · have : d < 2 := hd
    interval_cases d
    · exact ⟨2, rfl, .inr rfl⟩
    · exact ⟨2, rfl, .inr rfl⟩
  · simp only [List.mem_cons, List.not_mem_nil, or_false] at hY
    rcases hY with rfl | rfl
    · have := hv 1
      norm_num at this
      simp [sdOf, this]
    · have := hv 5
      norm_num at this
      simp [sdOf, this]

/-- The class documentation also promises a ValueError if "values in `Xs` have multiple identical values". It does not happen: an
output whose inputs are all the same point is accepted. -/
theorem C42_repeated_inputs_accepted : ∃ gp, multiGPNew [⟨[2], [0, 0]⟩] [⟨[2], [1, 3]⟩] true = .ok gp := by
  refine ((C42_validation_partial _ _ (by simp) (by simp) true).1).2 ⟨1, by simp, rfl, fun d hd => ?_, fun Y hY => .inr ?_⟩
  · have : d < 1 := hd
    interval_cases d
    exact ⟨2, rfl, .inl ⟨rfl, rfl⟩⟩
  · simp only [List.mem_cons, List.not_mem_nil, or_false] at hY
    subst hY
    have hv : varOf [1, 3] = 1 := by
      simp [varOf, meanOf, Finset.sum_range_succ]
      norm_num
    simp [sdOf, hv]

end Verif
