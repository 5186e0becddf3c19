import Verif.Spec.Symmetry
import Verif.Proofs.LLGPSim

/-! Lemmas for C73: a model of the same observations in other units. -/

namespace Verif

theorem mean_value (σ : Units) (d : ℕ) {l : List ℝ} (h : l ≠ []) : arrMean (l.map (σ.value d)) = σ.value d (arrMean l) := by
  have hl : (l.length : ℝ) ≠ 0 := by
    have : 0 < l.length := List.length_pos_iff.2 h
    positivity
  have hs : ∀ l : List ℝ, (l.map (σ.value d)).sum = (σ d).1 * l.sum + l.length * (σ d).2 := by
    intro l
    induction l with
    | nil => simp
    | cons y l ih =>
      rw [List.map_cons, List.sum_cons, ih, List.sum_cons, List.length_cons]
      push_cast
      unfold Units.value
      ring
  unfold arrMean
  rw [hs, List.length_map]
  unfold Units.value
  field_simp

theorem std_value (σ : Units) (d : ℕ) (hσ : 0 < (σ d).1) {l : List ℝ} (h : l ≠ []) : arrStd (l.map (σ.value d)) = (σ d).1 * arrStd l := by
  unfold arrStd
  rw [mean_value σ d h]
  have e : (List.map (fun y => (y - σ.value d (arrMean l)) ^ 2) (l.map (σ.value d))) = (l.map fun y => (y - arrMean l) ^ 2).map fun v => (σ d).1 ^ 2 * v := by
    rw [List.map_map, List.map_map]
    refine List.map_congr_left fun y _ => ?_
    simp only [Function.comp, Units.value]
    ring
  have e2 : ∀ l : List ℝ, arrMean (l.map fun v => (σ d).1 ^ 2 * v) = (σ d).1 ^ 2 * arrMean l := by
    intro l
    unfold arrMean
    rw [List.length_map, List.sum_map_mul_left, List.map_id', mul_div_assoc]
  rw [e, e2, Real.sqrt_mul (sq_nonneg _), Real.sqrt_sq hσ.le]

theorem checkStd_units (σ : Units) (d : ℕ) (hσ : 0 < (σ d).1) {Y : NDArr ℝ} (h : Y.data ≠ []) : checkStd ⟨Y.shape, Y.data.map (σ.value d)⟩ = checkStd Y := by
  unfold checkStd
  have h' : Y.data.map (σ.value d) ≠ [] := by simpa using h
  simp only [h, h', ne_eq, not_false_eq_true, true_and]
  rw [std_value σ d hσ h]
  by_cases e : arrStd Y.data = 0
  · rw [if_pos e, if_pos (by rw [e, mul_zero])]
  · rw [if_neg e, if_neg (mul_ne_zero hσ.ne' e)]

/-- the units of the following outputs -/
def Units.tail (σ : Units) : Units := fun d => σ (d + 1)

theorem Units.data_cons (σ : Units) (Y : NDArr ℝ) (Ys : List (NDArr ℝ)) : σ.data (Y :: Ys) = ⟨Y.shape, Y.data.map (σ.value 0)⟩ :: σ.tail.data Ys := by
  unfold Units.data
  rw [List.mapIdx_cons]
  rfl

theorem Units.length_data (σ : Units) (Ys : List (NDArr ℝ)) : (σ.data Ys).length = Ys.length := List.length_mapIdx

theorem checkPairs_units : ∀ (σ : Units) (Xs Ys : List (NDArr ℝ)), mapExcept checkPair (Xs.zip (σ.data Ys)) = mapExcept checkPair (Xs.zip Ys)
  | σ, [], Ys => by simp
  | σ, X :: Xs, [] => rfl
  | σ, X :: Xs, Y :: Ys => by
    rw [Units.data_cons, List.zip_cons_cons, List.zip_cons_cons, mapExcept, mapExcept, checkPairs_units σ.tail Xs Ys]
    rfl

theorem checkStds_units : ∀ (σ : Units) (_ : σ.Positive) (Ys : List (NDArr ℝ)), (∀ Y ∈ Ys, Y.data ≠ []) → mapExcept checkStd (σ.data Ys) = mapExcept checkStd Ys
  | σ, _, [], _ => rfl
  | σ, hσ, Y :: Ys, h => by
    rw [Units.data_cons, mapExcept, mapExcept, checkStds_units σ.tail (fun d => hσ (d + 1)) Ys fun Y hY => h Y (by simp [hY]),
      checkStd_units σ 0 (hσ 0) (h Y (by simp))]

theorem validateIO_units (σ : Units) (hσ : σ.Positive) (Xs Ys : List (NDArr ℝ)) (h : ∀ Y ∈ Ys, Y.data ≠ []) : validateIO Xs (σ.data Ys) = validateIO Xs Ys := by
  unfold validateIO
  rw [σ.length_data, checkPairs_units, checkStds_units σ hσ Ys h]

/-- a normalizer in other units -/
noncomputable def Units.norm (σ : Units) (d : ℕ) (n : Norm) : Norm := ⟨n.mean.map (σ.value d), n.std.map fun s => (σ d).1 * s⟩

theorem scaleBy_units (σ : Units) (d : ℕ) (hσ : 0 < (σ d).1) (n : Norm) {Y : List ℝ} (h : Y ≠ []) :
    n.scaleBy ((Y.map (σ.value d)).map some) = σ.norm d (n.scaleBy (Y.map some)) := by
  unfold Norm.scaleBy Units.norm
  have e : ∀ l : List ℝ, (l.map some).reduceOption = l := fun l => by
    rw [List.reduceOption, List.filterMap_map]
    exact List.filterMap_some
  rw [e, e, mean_value σ d h, std_value σ d hσ h]
  rfl

/-- the normalizers of the constructor -/
noncomputable def normsOf (Ys : List (NDArr ℝ)) : List Norm := (List.replicate Ys.length Norm.new).zipWith (fun n Y => n.scaleBy (Y.data.map some)) Ys

theorem normsOf_cons (Y : NDArr ℝ) (Ys : List (NDArr ℝ)) : normsOf (Y :: Ys) = Norm.new.scaleBy (Y.data.map some) :: normsOf Ys := rfl

theorem norms_units : ∀ (σ : Units) (_ : σ.Positive) (Ys : List (NDArr ℝ)), (∀ Y ∈ Ys, Y.data ≠ []) → normsOf (σ.data Ys) = (normsOf Ys).mapIdx σ.norm
  | σ, _, [], _ => rfl
  | σ, hσ, Y :: Ys, h => by
    rw [Units.data_cons, normsOf_cons, normsOf_cons, List.mapIdx_cons, norms_units σ.tail (fun d => hσ (d + 1)) Ys fun Y hY => h Y (by simp [hY]),
      scaleBy_units σ 0 (hσ 0) _ (h Y (by simp))]
    rfl

theorem normalized_units : ∀ (σ : Units) (_ : σ.Positive) (Ys : List (NDArr ℝ)) (ns : List Norm),
    mapExcept (fun nY : Norm × NDArr ℝ => nY.1.normalize nY.2.data) ((ns.mapIdx σ.norm).zip (σ.data Ys)) =
      mapExcept (fun nY : Norm × NDArr ℝ => nY.1.normalize nY.2.data) (ns.zip Ys)
  | σ, _, [], ns => by simp [Units.data]
  | σ, _, Y :: Ys, [] => rfl
  | σ, hσ, Y :: Ys, n :: ns => by
    have e : (σ.norm 0 n).normalize (Y.data.map (σ.value 0)) = n.normalize Y.data := by
      unfold Norm.normalize Units.norm
      cases hm : n.mean with
      | none => simp
      | some m =>
        cases hs : n.std with
        | none => simp
        | some s =>
          simp only [Option.map_some, List.map_map]
          congr 1
          refine List.map_congr_left fun y _ => ?_
          simp only [Function.comp, Units.value]
          rw [show (σ 0).1 * y + (σ 0).2 - ((σ 0).1 * m + (σ 0).2) = (σ 0).1 * (y - m) by ring, mul_div_mul_left _ _ (hσ 0).ne']
    have ih := normalized_units σ.tail (fun d => hσ (d + 1)) Ys ns
    rw [Units.data_cons, List.mapIdx_cons, List.zip_cons_cons, List.zip_cons_cons, mapExcept, mapExcept]
    show (do let y ← (σ.norm 0 n).normalize (Y.data.map (σ.value 0)); let ys ← _; Pure.pure (y :: ys)) = _
    rw [e]
    exact congrArg _ (funext fun y => congrArg (· >>= fun ys => Pure.pure (y :: ys)) ih)

/-- how the attributes of the base class differ: only in the units of the normalizers -/
def UnitsRel (σ : Units) (gp gp' : MultiGP) : Prop := ∃ ns : List (ℝ × ℝ), ns ≠ [] ∧ gp.normalizer = some (ns.map fun x => ⟨some x.1, some x.2⟩) ∧
  gp' = { gp with normalizer := some ((ns.map fun x => (⟨some x.1, some x.2⟩ : Norm)).mapIdx σ.norm) }

theorem normsOf_some (Ys : List (NDArr ℝ)) : ∃ ns : List (ℝ × ℝ), normsOf Ys = ns.map fun x => ⟨some x.1, some x.2⟩ := by
  induction Ys with
  | nil => exact ⟨[], rfl⟩
  | cons Y Ys ih =>
    obtain ⟨ns, h⟩ := ih
    exact ⟨(_, _) :: ns, by rw [normsOf_cons, h]; rfl⟩

theorem multiGPNew_units (σ : Units) (hσ : σ.Positive) (Xs Ys : List (NDArr ℝ)) (h : ∀ Y ∈ Ys, Y.data ≠ []) :
    ExceptRel (UnitsRel σ) (multiGPNew Xs Ys true) (multiGPNew Xs (σ.data Ys) true) := by
  unfold multiGPNew
  rw [validateIO_units σ hσ Xs Ys h]
  cases hv : validateIO Xs Ys with
  | error e => exact rfl
  | ok pd =>
    obtain ⟨p, d⟩ := pd
    simp only [ok_bind, if_true]
    rw [show (List.replicate (σ.data Ys).length Norm.new).zipWith (fun n Y => n.scaleBy (Y.data.map some)) (σ.data Ys) = normsOf (σ.data Ys) from rfl,
      show (List.replicate Ys.length Norm.new).zipWith (fun n Y => n.scaleBy (Y.data.map some)) Ys = normsOf Ys from rfl, norms_units σ hσ Ys h,
      normalized_units σ hσ Ys (normsOf Ys)]
    cases hn : mapExcept (fun nY : Norm × NDArr ℝ => nY.1.normalize nY.2.data) ((normsOf Ys).zip Ys) with
    | error e => exact rfl
    | ok Ys' =>
      simp only [ok_bind]
      cases hx : padDims p Xs with
      | error e => exact rfl
      | ok Xs' =>
        obtain ⟨ns, hns⟩ := normsOf_some Ys
        refine ⟨ns, ?_, by rw [← hns], by rw [← hns]⟩
        rintro rfl
        unfold validateIO at hv
        split_ifs at hv with c1 c2
        have hY : Ys ≠ [] := fun e => c1 (List.length_eq_zero_iff.1 (by rw [not_not.1 c2, e]; rfl))
        cases Ys with
        | nil => exact hY rfl
        | cons Y Ys => rw [normsOf_cons] at hns; simp at hns

theorem llgpInit_units (σ : Units) (hσ : σ.Positive) (a : LLGPArgs) (hn : a.normalize = true) (h : ∀ Y ∈ a.Ys, Y.data ≠ []) :
    ExceptRel (Twins Eq (UnitsRel σ)) (llgpInit a) (llgpInit { a with Ys := σ.data a.Ys }) := by
  unfold llgpInit
  have hg := multiGPNew_units σ hσ a.Xs a.Ys h
  simp only [hn] at hg ⊢
  cases h1 : multiGPNew a.Xs a.Ys true with
  | error e =>
    cases h2 : multiGPNew a.Xs (σ.data a.Ys) true with
    | error e' => rw [h1, h2] at hg; exact hg
    | ok gp' => rw [h1, h2] at hg; exact absurd hg (by simp [ExceptRel])
  | ok gp =>
    cases h2 : multiGPNew a.Xs (σ.data a.Ys) true with
    | error e' => rw [h1, h2] at hg; exact absurd hg (by simp [ExceptRel])
    | ok gp' =>
      rw [h1, h2] at hg
      obtain ⟨ns, e0, e1, rfl⟩ := hg
      simp only [ok_bind]
      cases hf : a.functionalKernel with
      | none => exact rfl
      | some fk =>
        cases hp : predMode a.prediction with
        | none => exact rfl
        | some mode =>
          simp only
          cases hs : fk.setInputDim gp.inputDim with
          | error e => exact rfl
          | ok fk' =>
            simp only [ok_bind]
            cases hgr : generateGrids fk' gp.Xs a.lo a.hi a.m with
            | error e => exact rfl
            | ok grids =>
              refine ⟨rfl, rfl, rfl, rfl, rfl, rfl, fun _ => rfl, ?_, ?_, ns, e0, e1, rfl⟩
              · rintro Q _ rfl fk
                rfl
              · rintro Q _ rfl ga
                rfl

theorem mapExcept_means : ∀ (σ : Units) (ns : List (ℝ × ℝ)) (ls : List (List ℝ)), ∃ out,
    mapExcept (fun nm : Norm × List ℝ => nm.1.inverseMean nm.2) ((ns.map fun x => (⟨some x.1, some x.2⟩ : Norm)).zip ls) = .ok out ∧
    mapExcept (fun nm : Norm × List ℝ => nm.1.inverseMean nm.2) (((ns.map fun x => (⟨some x.1, some x.2⟩ : Norm)).mapIdx σ.norm).zip ls) =
      .ok (out.mapIdx fun d l => l.map (σ.value d))
  | σ, [], ls => ⟨[], rfl, rfl⟩
  | σ, n :: ns, [] => ⟨[], by simp [mapExcept, pure, Except.pure], by simp [mapExcept, pure, Except.pure]⟩
  | σ, n :: ns, l :: ls => by
    obtain ⟨out, h1, h2⟩ := mapExcept_means σ.tail ns ls
    refine ⟨(l.map fun x => x * n.2 + n.1) :: out, ?_, ?_⟩
    · rw [List.map_cons, List.zip_cons_cons, mapExcept, h1]
      rfl
    · rw [List.map_cons, List.mapIdx_cons, List.zip_cons_cons, mapExcept,
        show mapExcept (fun nm : Norm × List ℝ => nm.1.inverseMean nm.2) (List.zip (List.mapIdx (fun i => σ.norm (i + 1)) (ns.map fun x => ⟨some x.1, some x.2⟩)) ls) = _ from h2]
      show Except.ok (_ :: _) = Except.ok _
      rw [List.mapIdx_cons, List.map_map]
      congr 2
      refine List.map_congr_left fun x _ => ?_
      simp only [Function.comp, Units.value]
      ring

theorem mapExcept_vars : ∀ (σ : Units) (ns : List (ℝ × ℝ)) (ls : List (List ℝ)), ∃ out,
    mapExcept (fun nm : Norm × List ℝ => nm.1.inverseVariance nm.2) ((ns.map fun x => (⟨some x.1, some x.2⟩ : Norm)).zip ls) = .ok out ∧
    mapExcept (fun nm : Norm × List ℝ => nm.1.inverseVariance nm.2) (((ns.map fun x => (⟨some x.1, some x.2⟩ : Norm)).mapIdx σ.norm).zip ls) =
      .ok (out.mapIdx fun d l => l.map (σ.variance d))
  | σ, [], ls => ⟨[], rfl, rfl⟩
  | σ, n :: ns, [] => ⟨[], by simp [mapExcept, pure, Except.pure], by simp [mapExcept, pure, Except.pure]⟩
  | σ, n :: ns, l :: ls => by
    obtain ⟨out, h1, h2⟩ := mapExcept_vars σ.tail ns ls
    refine ⟨(l.map fun x => x * n.2 ^ 2) :: out, ?_, ?_⟩
    · rw [List.map_cons, List.zip_cons_cons, mapExcept, h1]
      rfl
    · rw [List.map_cons, List.mapIdx_cons, List.zip_cons_cons, mapExcept,
        show mapExcept (fun nm : Norm × List ℝ => nm.1.inverseVariance nm.2) (List.zip (List.mapIdx (fun i => σ.norm (i + 1)) (ns.map fun x => ⟨some x.1, some x.2⟩)) ls) = _ from h2]
      show Except.ok (_ :: _) = Except.ok _
      rw [List.mapIdx_cons, List.map_map]
      congr 2
      refine List.map_congr_left fun x _ => ?_
      simp only [Function.comp, Units.variance]
      ring

theorem mapExcept_quantiles : ∀ (σ : Units) (ns : List (ℝ × ℝ)) (ls : List (Arr2 ℝ)), ∃ out,
    mapExcept (fun nm : Norm × Arr2 ℝ => nm.1.inverseMean2 nm.2) ((ns.map fun x => (⟨some x.1, some x.2⟩ : Norm)).zip ls) = .ok out ∧
    mapExcept (fun nm : Norm × Arr2 ℝ => nm.1.inverseMean2 nm.2) (((ns.map fun x => (⟨some x.1, some x.2⟩ : Norm)).mapIdx σ.norm).zip ls) =
      .ok (out.mapIdx fun d A => ⟨A.rows, A.cols, A.data.map (σ.value d)⟩)
  | σ, [], ls => ⟨[], rfl, rfl⟩
  | σ, n :: ns, [] => ⟨[], by simp [mapExcept, pure, Except.pure], by simp [mapExcept, pure, Except.pure]⟩
  | σ, n :: ns, l :: ls => by
    obtain ⟨out, h1, h2⟩ := mapExcept_quantiles σ.tail ns ls
    refine ⟨⟨l.rows, l.cols, l.data.map fun x => x * n.2 + n.1⟩ :: out, ?_, ?_⟩
    · rw [List.map_cons, List.zip_cons_cons, mapExcept, h1]
      rfl
    · rw [List.map_cons, List.mapIdx_cons, List.zip_cons_cons, mapExcept,
        show mapExcept (fun nm : Norm × Arr2 ℝ => nm.1.inverseMean2 nm.2) (List.zip (List.mapIdx (fun i => σ.norm (i + 1)) (ns.map fun x => ⟨some x.1, some x.2⟩)) ls) = _ from h2]
      show Except.ok (_ :: _) = Except.ok _
      rw [List.mapIdx_cons, List.map_map]
      congr 3
      refine List.map_congr_left fun x _ => ?_
      simp only [Function.comp, Units.value]
      ring

theorem predict_units (σ : Units) {gp gp' : MultiGP} (h : UnitsRel σ gp gp') (Qs : List (NDArr ℝ)) (r : Except PyErr Predicted) :
    ExceptRel (fun p p' => p' = σ.predicted p) (gp.predict (fun _ => r) Qs) (gp'.predict (fun _ => r) Qs) := by
  obtain ⟨ns, e0, e1, rfl⟩ := h
  unfold MultiGP.predict MultiGP.predictWith
  simp only
  cases hp : padDims gp.inputDim Qs with
  | error e => exact rfl
  | ok Q =>
    simp only [ok_bind]
    by_cases c1 : Q.length ≠ gp.outputDim
    · rw [if_pos c1, if_pos c1]
      exact rfl
    by_cases c2 : ¬ ∀ X ∈ Q, X.cols = gp.inputDim
    · rw [if_neg c1, if_neg c1, if_pos c2, if_pos c2]
      exact rfl
    rw [if_neg c1, if_neg c1, if_neg c2, if_neg c2, e1]
    cases r with
    | error e => exact rfl
    | ok p =>
      simp only [ok_bind]
      rw [if_pos ⟨by simpa using e0, trivial⟩, if_pos ⟨by simpa using e0, trivial⟩]
      unfold denormalize
      obtain ⟨mu, m1, m2⟩ := mapExcept_means σ ns p.1
      obtain ⟨va, v1, v2⟩ := mapExcept_vars σ ns p.2
      rw [m1, m2, v1, v2]
      exact rfl

theorem quantiles_units (σ : Units) {gp gp' : MultiGP} (h : UnitsRel σ gp gp') (Qs : List (NDArr ℝ)) (qs : List ℝ) (r : Except PyErr Predicted) :
    ExceptRel (fun p p' => p' = p.mapIdx fun d A => ⟨A.rows, A.cols, A.data.map (σ.value d)⟩) (gp.predictQuantiles (fun _ => r) Qs qs)
      (gp'.predictQuantiles (fun _ => r) Qs qs) := by
  obtain ⟨ns, e0, e1, rfl⟩ := h
  unfold MultiGP.predictQuantiles MultiGP.predictWith
  simp only
  cases hp : padDims gp.inputDim Qs with
  | error e => exact rfl
  | ok Q =>
    simp only [ok_bind]
    by_cases c1 : Q.length ≠ gp.outputDim
    · rw [if_pos c1, if_pos c1]
      exact rfl
    by_cases c2 : ¬ ∀ X ∈ Q, X.cols = gp.inputDim
    · rw [if_neg c1, if_neg c1, if_pos c2, if_pos c2]
      exact rfl
    rw [if_neg c1, if_neg c1, if_neg c2, if_neg c2, e1]
    cases r with
    | error e => exact rfl
    | ok p =>
      simp only [ok_bind]
      rw [if_neg (by simp), if_neg (by simp)]
      simp only [pure_bind]
      cases hq : mapExcept (fun mv : List ℝ × List ℝ => quantilesOf qs mv.1 mv.2) (p.1.zip p.2) with
      | error e => exact rfl
      | ok q =>
        simp only [ok_bind]
        rw [if_pos (by simpa using e0), if_pos (by simpa using e0)]
        obtain ⟨out, m1, m2⟩ := mapExcept_quantiles σ ns q
        rw [m1, m2]
        exact rfl

theorem op_units (σ : Units) (hσ : σ.Positive) (u : Bool) (sv : Solvers) (op : Op) (h : op.Normalizes) :
    Sim Eq (UnitsRel σ) (fun x x' => x' = σ.answer x) (execOp u sv op) (execOp u sv (σ.op op)) := by
  have hpad : ∀ (Qs : List (NDArr ℝ)) p, ExceptRel (fun Q Q' => Q = Q' ∧ Q'.map Arr2.rows = Q.map Arr2.rows ∧ Q'.map Arr2.cols = Q.map Arr2.cols)
      (padDims p Qs) (padDims p Qs) := by
    intro Qs p
    cases padDims p Qs with
    | error e => exact rfl
    | ok Q => exact ⟨rfl, rfl, rfl⟩
  cases op with
  | new a e =>
    refine Sim.mono (ρ := fun x x' => x = x' ∧ ∃ i, x = .model i) ?_ ?_
    · show Sim _ _ _ (execOp u sv (.new a e)) (execOp u sv (.new { a with Ys := σ.data a.Ys } e))
      unfold execOp
      refine Sim.bind (Sim.lift (llgpInit_units σ hσ a h.1 h.2)) fun m m' hm => ?_
      refine Sim.bind (allocate_sim hm) ?_
      rintro i _ rfl
      refine Sim.bind (parametersChanged_sim u sv e i) fun _ _ _ => ?_
      exact Sim.pure ⟨rfl, i, rfl⟩
    · rintro x _ ⟨rfl, i, rfl⟩
      rfl
  | set i fk e =>
    show Sim _ _ _ (execOp u sv (.set i fk e)) (execOp u sv (.set i fk e))
    unfold execOp
    refine Sim.bind (Sim.modifySelf i fun m m' h => h.withFK fk) fun _ _ _ => ?_
    refine Sim.bind (parametersChanged_sim u sv e i) fun _ _ _ => ?_
    exact Sim.pure rfl
  | optimize i =>
    show Sim _ _ _ (execOp u sv (.optimize i)) (execOp u sv (.optimize i))
    unfold execOp
    refine Sim.bind (Sim.modifySelf i fun m m' h => by rw [h.metrics]; exact h.withMetrics _) fun _ _ _ => ?_
    exact Sim.pure rfl
  | ask i q e =>
    show Sim _ _ _ (askM u sv e i q) (askM u sv e i q)
    cases q with
    | predict Qs =>
      refine Sim.bind (publicPredict_sim u sv e i (hpad Qs) fun gp gp' h _ _ r => predict_units σ h Qs r) ?_
      rintro p _ rfl
      exact Sim.pure rfl
    | quantiles Qs qs =>
      refine Sim.bind (publicPredict_sim u sv e i (hpad Qs) fun gp gp' h _ _ r => quantiles_units σ h Qs qs r) ?_
      rintro p _ rfl
      exact Sim.pure rfl
    | covariance =>
      refine Sim.bind (denseM_sim u i) ?_
      rintro l _ rfl
      exact Sim.pure rfl
    | logDet =>
      refine Sim.bind (logDetM_sim u i) ?_
      rintro l _ rfl
      exact Sim.pure rfl
    | normalQuadratic =>
      refine Sim.bind (normalQuadraticM_sim i) ?_
      rintro l _ rfl
      exact Sim.pure rfl
    | logLikelihood =>
      refine Sim.bind (logLikelihoodM_sim u i) ?_
      rintro l _ rfl
      exact Sim.pure rfl

theorem results_units (σ : Units) {r r' : List (Except PyErr Answer)} (h : List.Forall₂ (ExceptRel fun x x' => x' = σ.answer x) r r') :
    r' = r.map (Except.map σ.answer) := by
  induction h with
  | nil => rfl
  | @cons a b _ _ h _ ih =>
    rw [ih, List.map_cons]
    congr 1
    cases a with
    | error e =>
      cases b with
      | error e' => exact congrArg _ (Eq.symm h)
      | ok b => exact absurd h (by simp [ExceptRel])
    | ok a =>
      cases b with
      | error e' => exact absurd h (by simp [ExceptRel])
      | ok b => exact congrArg _ h

end Verif
