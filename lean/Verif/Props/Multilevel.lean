import Verif.Spec.Multilevel
import Verif.Props.Objective
import Verif.Props.Priors
import Mathlib.Analysis.Complex.ExponentialBounds

/-! C125: multilevel priors. -/

namespace Verif

open MeasureTheory Set

/-- C125: just made, a prior is the one with the current values of its arguments (and the constructor raises ValueError when that prior would). -/
theorem C125_just_made (call : PriorCall) (built : List ℝ) : (call.make built).map (fun o => o built) = call.given built := by
  cases call with
  | gaussian mu var =>
    unfold PriorCall.make PriorCall.given gaussianPrior
    by_cases h : var.read built ≤ 0
    · simp only [if_pos h]; rfl
    · simp only [if_neg h]; rfl
  | gamma a b => rfl
  | inverseGamma a b => rfl
  | halfLaplace b => rfl

/-- C125: a prior whose arguments are numbers is that prior for ever. -/
theorem C125_numbers (call : PriorCall) (built now : List ℝ) (h : ∀ x ∈ call.args, ∃ r, x = .num r) : (call.make built).map (fun o => o now) = call.given now := by
  rw [← C125_just_made call now]
  congr 1
  cases call with
  | gaussian mu var =>
    obtain ⟨m, rfl⟩ := h mu (by simp [PriorCall.args])
    obtain ⟨v, rfl⟩ := h var (by simp [PriorCall.args])
    rfl
  | gamma a b =>
    obtain ⟨x, rfl⟩ := h a (by simp [PriorCall.args])
    obtain ⟨y, rfl⟩ := h b (by simp [PriorCall.args])
    rfl
  | inverseGamma a b =>
    obtain ⟨x, rfl⟩ := h a (by simp [PriorCall.args])
    obtain ⟨y, rfl⟩ := h b (by simp [PriorCall.args])
    rfl
  | halfLaplace b =>
    obtain ⟨y, rfl⟩ := h b (by simp [PriorCall.args])
    rfl

/-- C125: the gradient in the parameter with the prior is the one of the prior with the current values of its arguments; `Gamma` keeps the values it was made with. -/
theorem C125_slope (call : PriorCall) (built now : List ℝ) (o : List ℝ → PriorObj) (p : PriorObj) (hm : call.make built = .ok o)
    (hp : call.given (match call with | .gamma _ _ => built | _ => now) = .ok p) : (o now).domain = p.domain ∧ (o now).lnpdfGrad = p.lnpdfGrad := by
  cases call with
  | gaussian mu var =>
    unfold PriorCall.make at hm
    unfold PriorCall.given gaussianPrior at hp
    simp only at hm hp
    split_ifs at hm hp
    obtain rfl := Except.ok.inj hm
    obtain rfl := Except.ok.inj hp
    exact ⟨rfl, rfl⟩
  | gamma a b =>
    obtain rfl := Except.ok.inj hm
    obtain rfl := Except.ok.inj hp
    exact ⟨rfl, rfl⟩
  | inverseGamma a b =>
    obtain rfl := Except.ok.inj hm
    obtain rfl := Except.ok.inj hp
    exact ⟨rfl, rfl⟩
  | halfLaplace b =>
    obtain rfl := Except.ok.inj hm
    obtain rfl := Except.ok.inj hp
    exact ⟨rfl, rfl⟩

/-- C125: a `Gamma` prior does not follow its arguments at all. -/
theorem C125_gamma_fixed (a b : Hyper) (built : List ℝ) (o : List ℝ → PriorObj) (h : (PriorCall.gamma a b).make built = .ok o) (now : List ℝ) :
    o now = gammaPrior (a.read built) (b.read built) := by
  obtain rfl := Except.ok.inj h
  rfl

theorem integral_scaled (q : ℝ → ℝ) {p : ℝ → ℝ} {c : ℝ} (h : ∀ x, q x = p x + c) (S : Set ℝ) (h1 : ∫ x in S, Real.exp (p x) = 1) :
    ∫ x in S, Real.exp (q x) = Real.exp c := by
  simp only [h, Real.exp_add]
  rw [integral_mul_const, h1, one_mul]

/-- C125: when the scale `b` of an `InverseGamma` prior is a `Param` that has moved from `b₀` to `b`, the log density is that of the prior with the current value
plus `a (log b₀ - log b)`, so that the density has mass `(b₀ / b) ^ a`. -/
theorem C125_inverse_gamma_stale (a : ℝ) (i : ℕ) (built now : List ℝ) (o : List ℝ → PriorObj) (h : (PriorCall.inverseGamma (.num a) (.param i)).make built = .ok o)
    (ha : 0 < a) (h0 : 0 < built.getD i 0) (h1 : 0 < now.getD i 0) :
    (∀ x, (o now).logDensity x = (inverseGammaPrior a (now.getD i 0)).logDensity x + a * (Real.log (built.getD i 0) - Real.log (now.getD i 0))) ∧
      ∫ x in domainSet (o now).domain, Real.exp ((o now).logDensity x) = (built.getD i 0 / now.getD i 0) ^ a := by
  obtain rfl := Except.ok.inj h
  have key : ∀ x, (-gammaln a + a * Real.log (built.getD i 0) - (a + 1) * Real.log x - now.getD i 0 / x) =
      (-gammaln a + a * Real.log (now.getD i 0) - (a + 1) * Real.log x - now.getD i 0 / x) + a * (Real.log (built.getD i 0) - Real.log (now.getD i 0)) := fun x => by ring
  refine ⟨key, ?_⟩
  rw [Real.rpow_def_of_pos (div_pos h0 h1), Real.log_div h0.ne' h1.ne', mul_comm (Real.log _ - Real.log _) a]
  exact integral_scaled _ (p := (inverseGammaPrior a (now.getD i 0)).logDensity) key _ (C54_inverse_gamma a _ ha h1)

/-- C125: likewise for the scale of a `HalfLaplace` prior: mass `b / b₀`. -/
theorem C125_half_laplace_stale (i : ℕ) (built now : List ℝ) (o : List ℝ → PriorObj) (h : (PriorCall.halfLaplace (.param i)).make built = .ok o)
    (h0 : 0 < built.getD i 0) (h1 : 0 < now.getD i 0) :
    (∀ x, (o now).logDensity x = (halfLaplacePrior (now.getD i 0)).logDensity x + (Real.log (now.getD i 0) - Real.log (built.getD i 0))) ∧
      ∫ x in domainSet (o now).domain, Real.exp ((o now).logDensity x) = now.getD i 0 / built.getD i 0 := by
  obtain rfl := Except.ok.inj h
  have key : ∀ x, (-Real.log (built.getD i 0) - x / now.getD i 0) = (-Real.log (now.getD i 0) - x / now.getD i 0) + (Real.log (now.getD i 0) - Real.log (built.getD i 0)) :=
    fun x => by ring
  refine ⟨key, ?_⟩
  rw [← Real.exp_log (div_pos h1 h0), Real.log_div h1.ne' h0.ne']
  exact integral_scaled _ (p := (halfLaplacePrior (now.getD i 0)).logDensity) key _ (C54_half_laplace _ h1)

/-- C125: likewise for the variance of a `Gaussian` prior: mass `√(v / v₀)`. The mean has no part in it. -/
theorem C125_gaussian_stale (mu : Hyper) (i : ℕ) (built now : List ℝ) (o : List ℝ → PriorObj) (h : (PriorCall.gaussian mu (.param i)).make built = .ok o)
    (h1 : 0 < now.getD i 0) :
    0 < built.getD i 0 ∧ ∃ p, gaussianPrior (mu.read now) (now.getD i 0) = .ok p ∧
    (∀ x, (o now).logDensity x = p.logDensity x + (Real.log (now.getD i 0) - Real.log (built.getD i 0)) / 2) ∧
      ∫ x in domainSet (o now).domain, Real.exp ((o now).logDensity x) = Real.sqrt (now.getD i 0 / built.getD i 0) := by
  have h0 : 0 < built.getD i 0 := by
    by_contra hn
    unfold PriorCall.make at h
    simp only at h
    rw [if_pos (show (Hyper.param i).read built ≤ 0 from not_lt.1 hn)] at h
    exact nomatch h
  refine ⟨h0, ?_⟩
  obtain ⟨p, hp, hn⟩ := C54_gaussian (mu.read now) (now.getD i 0) h1
  refine ⟨p, hp, ?_⟩
  unfold PriorCall.make at h
  simp only at h
  rw [if_neg (show ¬ (Hyper.param i).read built ≤ 0 from not_le.2 h0)] at h
  obtain rfl := Except.ok.inj h
  unfold gaussianPrior at hp
  rw [if_neg (not_le.2 h1)] at hp
  obtain rfl := Except.ok.inj hp
  have h2 : (2 * Real.pi) ≠ 0 := by positivity
  have key : ∀ x, (-0.5 * Real.log (2 * Real.pi * built.getD i 0) - 0.5 * (x - mu.read now) ^ 2 / now.getD i 0) =
      (-0.5 * Real.log (2 * Real.pi * now.getD i 0) - 0.5 * (x - mu.read now) ^ 2 / now.getD i 0) + (Real.log (now.getD i 0) - Real.log (built.getD i 0)) / 2 := fun x => by
    rw [Real.log_mul h2 h0.ne', Real.log_mul h2 h1.ne']; ring
  refine ⟨key, ?_⟩
  rw [Real.sqrt_eq_rpow, Real.rpow_def_of_pos (div_pos h1 h0), Real.log_div h1.ne' h0.ne', mul_one_div]
  exact integral_scaled _ key _ hn

/-! ### The objective -/

theorem made_domain {objects : ℕ → List ℝ → PriorObj} (h : MadePriors objects) (k : ℕ) (ps qs : List ℝ) : (objects k ps).domain = (objects k qs).domain := by
  obtain ⟨call, built, hm⟩ := h k
  cases call with
  | gaussian mu var =>
    unfold PriorCall.make at hm
    simp only at hm
    split_ifs at hm
    rw [← Except.ok.inj hm]
  | gamma a b => rw [← Except.ok.inj hm]
  | inverseGamma a b => rw [← Except.ok.inj hm]
  | halfLaplace b => rw [← Except.ok.inj hm]

theorem made_elementwise {objects : ℕ → List ℝ → PriorObj} (h : MadePriors objects) (k : ℕ) (ps : List ℝ) : Vectorised (objects k ps).lnpdf := by
  obtain ⟨call, built, hm⟩ := h k
  cases call with
  | gaussian mu var =>
    unfold PriorCall.make at hm
    simp only at hm
    split_ifs at hm
    rw [← Except.ok.inj hm]
    exact fun _ => rfl
  | gamma a b => rw [← Except.ok.inj hm]; exact fun _ => rfl
  | inverseGamma a b => rw [← Except.ok.inj hm]; exact fun _ => rfl
  | halfLaplace b => rw [← Except.ok.inj hm]; exact fun _ => rfl

theorem live_transf (env : ParamEnv) (objects : ℕ → List ℝ → PriorObj) (ps : List ℝ) (c : Con) : (env.live objects ps).transf c = env.transf c := by
  cases c <;> rfl

theorem live_constrain (env : ParamEnv) (objects : ℕ → List ℝ → PriorObj) (ps : List ℝ) (s : PState) (ix : Finset ℕ) (c : Con) :
    constrain (env.live objects ps) s ix c = constrain env s ix c := by
  cases c <;> rfl

theorem live_domain (env : ParamEnv) (objects : ℕ → List ℝ → PriorObj) (ps : List ℝ) (s : PState) (ix : Finset ℕ) (d : Option String) :
    constrainDomain (env.live objects ps) s ix d = constrainDomain env s ix d := by
  unfold constrainDomain
  split <;> rfl

/-- calls about the parameters depend on the domains of the priors only -/
theorem live_run {env : ParamEnv} {objects : ℕ → List ℝ → PriorObj} (h : MadePriors objects) (ps qs : List ℝ) (s : PState) (op : POp) :
    op.run (env.live objects ps) s = op.run (env.live objects qs) s := by
  cases op with
  | setPrior ix p =>
    unfold POp.run setPrior
    simp only [live_domain]
    rw [show ((env.live objects ps).prior p).domain = ((env.live objects qs).prior p).domain from made_domain h p ps qs]
    rfl
  | unsetPrior ix => rfl
  | constrain ix c => simp only [POp.run, live_constrain]
  | unconstrain ix => rfl
  | assign i x => rfl

theorem runLive_eq {env : ParamEnv} {objects : ℕ → List ℝ → PriorObj} (h : MadePriors objects) (ps : List ℝ) (ops : List POp) (s : PState) :
    runLive env objects s ops = runOps (env.live objects ps) s ops := by
  unfold runLive runOps
  congr 1
  funext s op
  rw [live_run h s.params ps]

theorem live_logPrior_same {env : ParamEnv} {objects : ℕ → List ℝ → PriorObj} {s : PState} {ps qs : List ℝ} (h : ∀ e ∈ s.priors, objects e.1 ps = objects e.1 qs) :
    s.objective (env.live objects ps) = s.objective (env.live objects qs) := by
  unfold PState.objective PState.logPrior
  have e1 : (s.priors.map fun e => (((env.live objects ps).prior e.1).lnpdf (.array (takeIx s.params e.2))).sum) =
      s.priors.map fun e => (((env.live objects qs).prior e.1).lnpdf (.array (takeIx s.params e.2))).sum :=
    List.map_congr_left fun e he => by
      show ((objects e.1 ps).lnpdf _).sum = ((objects e.1 qs).lnpdf _).sum
      rw [h e he]
  have e2 : jacobianTerm (env.live objects ps) s = jacobianTerm (env.live objects qs) s := by
    funext e
    unfold jacobianTerm
    rw [live_transf, live_transf]
  rw [e1, e2]
  rfl

theorem listSum_sub {α : Type} (l : List α) (f g : α → ℝ) : (l.map fun a => f a - g a).sum = (l.map f).sum - (l.map g).sum := by
  induction l with
  | nil => simp
  | cons a l ih => simp only [List.map_cons, List.sum_cons, ih]; ring

theorem live_logPrior_diff {env : ParamEnv} {objects : ℕ → List ℝ → PriorObj} (hm : MadePriors objects) {s : PState} {n : ℕ} (hs : s.OK n) {ps qs : List ℝ} {k : ℕ} {S : Finset ℕ}
    (hk : (k, S) ∈ s.priors) (hS : S.Nonempty) (h : ∀ e ∈ s.priors, e.1 ≠ k → objects e.1 ps = objects e.1 qs) :
    s.objective (env.live objects ps) = s.objective (env.live objects qs) -
      ∑ j ∈ S, ((objects k ps).logDensity (s.params.getD j 0) - (objects k qs).logDensity (s.params.getD j 0)) := by
  have h0 : s.priors.size ≠ 0 := fun h0 => by
    have := size_zero h0 _ hk
    simp only at this
    exact hS.ne_empty this
  unfold PState.objective PState.logPrior
  rw [if_neg h0, if_neg h0]
  have e2 : jacobianTerm (env.live objects ps) s = jacobianTerm (env.live objects qs) s := by
    funext e
    unfold jacobianTerm
    rw [live_transf, live_transf]
  have e3 : ∀ rs, ((objects k rs).lnpdf (.array (takeIx s.params S))).sum = ∑ j ∈ S, (objects k rs).logDensity (s.params.getD j 0) := by
    intro rs
    rw [made_elementwise hm k rs]
    unfold PyNum.sum takeIx
    rw [List.map_map, ← sort_map_sum]
    rfl
  have e1 : (s.priors.map fun e => (((env.live objects ps).prior e.1).lnpdf (.array (takeIx s.params e.2))).sum).sum =
      (s.priors.map fun e => (((env.live objects qs).prior e.1).lnpdf (.array (takeIx s.params e.2))).sum).sum +
        ∑ j ∈ S, ((objects k ps).logDensity (s.params.getD j 0) - (objects k qs).logDensity (s.params.getD j 0)) := by
    rw [← sub_eq_iff_eq_add', ← listSum_sub]
    rw [sum_one_list hs.priors.keys _ hk fun e he hne => ?_]
    · show ((objects k ps).lnpdf _).sum - ((objects k qs).lnpdf _).sum = _
      rw [e3, e3, Finset.sum_sub_distrib]
    · show ((objects e.1 ps).lnpdf _).sum - ((objects e.1 qs).lnpdf _).sum = _
      rw [h e he hne, sub_self]
  simp only [e1, e2]
  show -(env.logLikelihood s.params + _) = -(env.logLikelihood s.params + _) - _
  ring

/-- C125 (partial): with multilevel priors, after any history of calls about the parameters, at values where everything has the gradients it claims, the gradient
of the objective is its derivative in every parameter that no prior in use depends on and that C55 does not exclude. Missing for the full claim, and false: the
parameters that are arguments of priors (`C125_missing`, `C125_violated`). -/
theorem C125_entry_partial (env : ParamEnv) (objects : ℕ → List ℝ → PriorObj) (hm : MadePriors objects) (xs : List ℝ) (ops : List POp) (ho : ∀ op ∈ ops, op.InRange xs.length)
    (s : PState) (hs : s = runLive env objects (PState.fresh xs) ops) (hr : s.Regular (env.live objects s.params)) (i : ℕ) (hi : i < xs.length)
    (hl : ∀ t, ¬ s.Lacking env i t) (hu : ∀ e ∈ s.priors, IgnoresParam (objects e.1) i) : s.LiveEntryCorrect env objects i := by
  have hs' := hs
  rw [runLive_eq hm s.params] at hs'
  have hl' : ∀ t, ¬ s.Lacking (env.live objects s.params) i t := by
    rintro t ⟨h1, c, h2, h3⟩
    rw [live_transf] at h3
    exact hl t ⟨h1, c, h2, h3⟩
  have := C55_gradient_partial (env.live objects s.params) xs ops ho (hs' ▸ hr) i hi (hs' ▸ hl')
  rw [← hs'] at this
  unfold PState.LiveEntryCorrect
  unfold PState.EntryCorrect at this
  refine this.congr_of_eventuallyEq (Filter.Eventually.of_forall fun u => ?_)
  exact live_logPrior_same fun e he => hu e he s.params u

/-- the derivative of the objective in a parameter that a prior in use depends on -/
theorem live_deriv {env : ParamEnv} {objects : ℕ → List ℝ → PriorObj} (hm : MadePriors objects) {s : PState} {n : ℕ} (hs : s.OK n) {i : ℕ} (hi : i < n) {k : ℕ} {S : Finset ℕ}
    (hk : (k, S) ∈ s.priors) (hS : S.Nonempty) (hiS : i ∉ S) (hu : ∀ e ∈ s.priors, e.1 ≠ k → IgnoresParam (objects e.1) i) {d g : ℝ}
    (hd : HasDerivAt (fun u => (s.setParam i u).objective (env.live objects s.params)) d (s.params.getD i 0))
    (hg : HasDerivAt (fun u => ∑ j ∈ S, (objects k (s.params.set i u)).logDensity (s.params.getD j 0)) g (s.params.getD i 0)) :
    HasDerivAt (fun u => (s.setParam i u).liveObjective env objects) (d - g) (s.params.getD i 0) := by
  have hi' : i < s.params.length := by rw [hs.params]; exact hi
  refine (hd.sub (hg.sub_const (∑ j ∈ S, (objects k s.params).logDensity (s.params.getD j 0)))).congr_of_eventuallyEq (Filter.Eventually.of_forall fun u => ?_)
  have hs2 : (s.setParam i u).OK n := ⟨by show (s.params.set i u).length = n; rw [List.length_set, hs.params], hs.priors, hs.constraints⟩
  have := live_logPrior_diff (env := env) hm hs2 (ps := s.params.set i u) (qs := s.params) hk hS fun e he hne => hu e he hne s.params u
  show (s.setParam i u).objective (env.live objects (s.params.set i u)) = _
  rw [this]
  simp only [Pi.sub_apply]
  congr 1
  rw [← Finset.sum_sub_distrib]
  refine Finset.sum_congr rfl fun j hj => ?_
  have hjn : j < s.params.length := by rw [hs.params]; exact hs.priors.range j k ⟨(k, S), hk, rfl, hj⟩
  have : (s.setParam i u).params.getD j 0 = s.params.getD j 0 := by
    show (s.params.set i u).getD j 0 = _
    rw [getD_set_ite hjn, if_neg (by rintro rfl; exact hiS hj)]
  rw [this]

/-- C125: in a parameter that is the scale of an `InverseGamma` prior of the parameters `S`, the derivative of the objective has a term `∑ 1 / x` over `S` that
the gradient lacks, besides what it may lack by C55. -/
theorem C125_missing (env : ParamEnv) (objects : ℕ → List ℝ → PriorObj) (hm : MadePriors objects) (xs : List ℝ) (ops : List POp) (ho : ∀ op ∈ ops, op.InRange xs.length)
    (s : PState) (hs : s = runLive env objects (PState.fresh xs) ops) (hr : s.Regular (env.live objects s.params)) (i : ℕ) (hi : i < xs.length)
    (k : ℕ) (S : Finset ℕ) (a : ℝ) (built : List ℝ) (hk : (k, S) ∈ s.priors) (hS : S.Nonempty) (hiS : i ∉ S)
    (hmake : (PriorCall.inverseGamma (.num a) (.param i)).make built = .ok (objects k)) (hu : ∀ e ∈ s.priors, e.1 ≠ k → IgnoresParam (objects e.1) i) :
    ((∀ t, ¬ s.Lacking env i t) → HasDerivAt (fun u => (s.setParam i u).liveObjective env objects)
      ((s.liveGradients env objects).getD i 0 + ∑ j ∈ S, 1 / s.params.getD j 0) (s.params.getD i 0)) ∧
    ∀ t, s.Lacking env i t → HasDerivAt (fun u => (s.setParam i u).liveObjective env objects)
      ((s.liveGradients env objects).getD i 0 - t.logJacobianGrad (s.params.getD i 0) + ∑ j ∈ S, 1 / s.params.getD j 0) (s.params.getD i 0) := by
  have hs' := hs
  rw [runLive_eq hm s.params] at hs'
  have hok : s.OK xs.length := hs' ▸ runOps_OK (env.live objects s.params) (fresh_OK xs) ho
  have hi' : i < s.params.length := by rw [hok.params]; exact hi
  have hg : HasDerivAt (fun u => ∑ j ∈ S, (objects k (s.params.set i u)).logDensity (s.params.getD j 0)) (-∑ j ∈ S, 1 / s.params.getD j 0) (s.params.getD i 0) := by
    rw [← Finset.sum_neg_distrib]
    refine HasDerivAt.fun_sum fun j _ => ?_
    rw [← Except.ok.inj hmake]
    show HasDerivAt (fun u => -gammaln a + a * Real.log (built.getD i 0) - (a + 1) * Real.log (s.params.getD j 0) - (s.params.set i u).getD i 0 / s.params.getD j 0) _ _
    simp only [getD_set_ite hi', if_true]
    refine (((hasDerivAt_id _).div_const (s.params.getD j 0)).const_sub _).congr_deriv ?_
    simp
  have hd := objective_deriv hok hr hi
  have key := live_deriv hm hok hi hk hS hiS hu hd hg
  obtain ⟨m1, m2⟩ := missingTerm_eq (env := env.live objects s.params) hok i
  have hlack : ∀ t, s.Lacking (env.live objects s.params) i t ↔ s.Lacking env i t := fun t => by
    unfold PState.Lacking
    simp only [live_transf]
  refine ⟨fun hl => ?_, fun t hl => ?_⟩
  · rw [m2 fun t ht => hl t ((hlack t).1 ht), sub_zero, sub_neg_eq_add] at key
    exact key
  · rw [m1 t ((hlack t).2 hl), sub_neg_eq_add] at key
    exact key

/-- C125 is false: when the parameter has no prior of its own (or the last of the dictionary), its entry of the gradient is not the derivative of the objective. -/
theorem C125_violated (env : ParamEnv) (objects : ℕ → List ℝ → PriorObj) (hm : MadePriors objects) (xs : List ℝ) (ops : List POp) (ho : ∀ op ∈ ops, op.InRange xs.length)
    (s : PState) (hs : s = runLive env objects (PState.fresh xs) ops) (hr : s.Regular (env.live objects s.params)) (i : ℕ) (hi : i < xs.length)
    (k : ℕ) (S : Finset ℕ) (a : ℝ) (built : List ℝ) (hk : (k, S) ∈ s.priors) (hS : S.Nonempty) (hiS : i ∉ S)
    (hmake : (PriorCall.inverseGamma (.num a) (.param i)).make built = .ok (objects k)) (hu : ∀ e ∈ s.priors, e.1 ≠ k → IgnoresParam (objects e.1) i)
    (hl : ∀ t, ¬ s.Lacking env i t) : ¬ s.LiveEntryCorrect env objects i := by
  intro hc
  have h1 := (C125_missing env objects hm xs ops ho s hs hr i hi k S a built hk hS hiS hmake hu).1 hl
  have h2 := HasDerivAt.unique hc h1
  have hpos : ∀ j ∈ S, 0 < s.params.getD j 0 := fun j hj => by
    have := (hr.priors j k ⟨(k, S), hk, rfl, hj⟩).2
    rw [show ((env.live objects s.params).prior k).domain = some "positive" by
      show (objects k s.params).domain = _
      rw [← Except.ok.inj hmake]] at this
    exact this
  have h3 : 0 < ∑ j ∈ S, 1 / s.params.getD j 0 := Finset.sum_pos (fun j hj => one_div_pos.2 (hpos j hj)) hS
  linarith

/-- C125: a parameter the likelihood does not use, with an `InverseGamma(c, d)` prior of its own that is not the last of the dictionary, has an entry in the gradient
that does not depend on any other parameter, and is zero exactly at `d / (c + 1)`: the optimizer moves it there whatever the data and whatever the parameters
whose prior it is an argument of (the recorded output of the example, with `c = d = 0.5`, is 0.333333333331). -/
theorem C125_alone (env : ParamEnv) (objects : ℕ → List ℝ → PriorObj) (hm : MadePriors objects) (xs : List ℝ) (ops : List POp) (ho : ∀ op ∈ ops, op.InRange xs.length)
    (s : PState) (hs : s = runLive env objects (PState.fresh xs) ops) (hr : s.Regular (env.live objects s.params)) (i : ℕ) (hi : i < xs.length)
    (k : ℕ) (c d : ℝ) (built : List ℝ) (hk : k ∈ s.priorsAt i) (hc : 0 < c) (hmake : (PriorCall.inverseGamma (.num c) (.num d)).make built = .ok (objects k))
    (hlast : ∀ e, s.priors.getLast? = some e → k ≠ e.1) (hL : (env.gradient s.params).getD i 0 = 0) :
    (s.liveGradients env objects).getD i 0 = (c + 1) / s.params.getD i 0 - d / s.params.getD i 0 ^ 2 ∧
      ((s.liveGradients env objects).getD i 0 = 0 ↔ s.params.getD i 0 = d / (c + 1)) := by
  have hs' := hs
  rw [runLive_eq hm s.params] at hs'
  have hok : s.OK xs.length := hs' ▸ runOps_OK (env.live objects s.params) (fresh_OK xs) ho
  have hv : 0 < s.params.getD i 0 := by
    have := (hr.priors i k hk).2
    rw [show ((env.live objects s.params).prior k).domain = some "positive" by
      show (objects k s.params).domain = _
      rw [← Except.ok.inj hmake]] at this
    exact this
  have e1 : (s.liveGradients env objects).getD i 0 = (c + 1) / s.params.getD i 0 - d / s.params.getD i 0 ^ 2 := by
    obtain ⟨e, he, rfl, hie⟩ := hk
    have h0 : s.priors.size ≠ 0 := fun h0 => by
      rw [size_zero h0 _ he] at hie
      exact absurd hie (Finset.notMem_empty _)
    obtain ⟨g1, g2⟩ := logPriorGradients_getD hok hr hi h0
    have hgl : ((env.live objects s.params).gradient s.params).length = xs.length := by rw [hr.size, hok.params]
    have hzip : ∀ {a b : List ℝ}, a.length = xs.length → b.length = xs.length → ((a.zip b).map fun p : ℝ × ℝ => -(p.1 + p.2)).getD i 0 = -(a.getD i 0 + b.getD i 0) := by
      intro a b ha hb
      rw [List.getD_eq_getElem _ _ (by simp [ha, hb]; omega), List.getElem_map, List.getElem_zip, List.getD_eq_getElem _ _ (by omega), List.getD_eq_getElem _ _ (by omega)]
    unfold PState.liveGradients PState.objectiveGradients
    rw [hzip hgl g1, g2, show ((env.live objects s.params).gradient s.params).getD i 0 = 0 from hL]
    rw [sum_one_list hok.priors.keys (fun e => if i ∈ e.2 then ((env.live objects s.params).prior e.1).slope (s.params.getD i 0) else 0) he
      fun a ha hne => if_neg fun hia => hne (hok.priors.unique i _ _ ⟨a, ha, rfl, hia⟩ ⟨e, he, rfl, hie⟩), if_pos hie]
    have hn : i ∉ (s.priors.getLast?.map Prod.snd).getD ∅ := by
      rw [mem_last_iff hok ⟨e, he, rfl, hie⟩]
      rintro ⟨e', h1, h2⟩
      exact hlast e' h1 h2
    rw [sum_zero_list s.constraints _ fun a _ => ?_]
    · have : ((env.live objects s.params).prior e.1).slope (s.params.getD i 0) = -(c + 1) / s.params.getD i 0 + d / s.params.getD i 0 ^ 2 := by
        show (objects e.1 s.params).slope _ = _
        rw [← Except.ok.inj hmake]
        rfl
      rw [this]
      ring
    · unfold jacGrad
      split
      · rfl
      · exact if_neg fun h => hn h.2
  refine ⟨e1, ?_⟩
  rw [e1]
  have hc1 : c + 1 ≠ 0 := by linarith
  constructor
  · intro h
    field_simp at h ⊢
    linarith
  · intro h
    have hd : d = s.params.getD i 0 * (c + 1) := by rw [h]; field_simp
    rw [hd]
    field_simp
    ring

/-! ### The example of the notebook -/

/-- the priors of the notebook: `ig = InverseGamma(0.5, 0.5)`, and `ig2 = InverseGamma(0.5, shape)`, made when `shape` (parameter 2) is 1 -/
noncomputable def notebookPriors (k : ℕ) (now : List ℝ) : PriorObj :=
  if k = 0 then inverseGammaPrior 0.5 0.5
  else
    { domain := some "positive"
      lnpdf := PyNum.map fun x => -gammaln 0.5 + 0.5 * Real.log 1 - (0.5 + 1) * Real.log x - now.getD 2 0 / x
      lnpdfGrad := PyNum.map fun x => -(0.5 + 1) / x + now.getD 2 0 / x ^ 2 }

theorem notebook_made : (PriorCall.inverseGamma (.num 0.5) (.num 0.5)).make [2, 3, 1] = .ok (notebookPriors 0) ∧
    ∀ k, k ≠ 0 → (PriorCall.inverseGamma (.num 0.5) (.param 2)).make [2, 3, 1] = .ok (notebookPriors k) := by
  constructor
  · congr 1
  · intro k hk
    have : notebookPriors k = fun now => _ := funext fun now => if_neg hk
    rw [this]
    rfl

theorem notebook_madePriors : MadePriors notebookPriors := fun k => by
  by_cases hk : k = 0
  · rw [hk]
    exact ⟨_, _, notebook_made.1⟩
  · exact ⟨_, _, notebook_made.2 k hk⟩

/-- a model with parameters 0 and 1 (the inverse lengthscales), which the likelihood depends on, and `shape` (parameter 2), which it does not depend on -/
noncomputable def notebookEnv : ParamEnv where
  prior := fun _ => gammaPrior 1 1
  other := fun _ => none
  negative := logexpTransf
  logLikelihood := fun xs => xs.getD 0 0 - 2 * xs.getD 1 0
  gradient := fun _ => [1, -2, 0]
  notify := fun _ => none
  seen := fun _ _ => []

/-- the calls of the notebook, and the value the optimizer leaves in `shape` -/
noncomputable def notebookOps : List POp := [.setPrior {2} 0, .setPrior {0} 1, .setPrior {1} 1, .assign 2 (1 / 3)]

theorem notebook_state : runLive notebookEnv notebookPriors (PState.fresh [2, 3, 1]) notebookOps =
    ⟨[2, 3, 1 / 3], [(0, {2}), (1, {0, 1})], [(.logexp, {0, 1, 2})]⟩ := by
  have hd : ∀ k ps, (notebookPriors k ps).domain = some "positive" := by
    intro k ps
    unfold notebookPriors
    split_ifs <;> rfl
  have e1 : setPrior (notebookEnv.live notebookPriors [2, 3, 1]) (PState.fresh [2, 3, 1]) {2} 0 = (none, ⟨[2, 3, 1], [(0, {2})], [(.logexp, {2})]⟩) := by
    simp [setPrior, PState.fresh, hd, constrainDomain, constrain, ParamEnv.transf, ParamEnv.live, notebookEnv, logexpTransf, IndexOps.removeAll, IndexOps.add, updateAt]
  have e2 : setPrior (notebookEnv.live notebookPriors [2, 3, 1]) ⟨[2, 3, 1], [(0, {2})], [(.logexp, {2})]⟩ {0} 1 =
      (none, ⟨[2, 3, 1], [(0, {2}), (1, {0})], [(.logexp, {2, 0})]⟩) := by
    have h1 : (IndexOps.removeAll [(0, {2})] {0} : IndexOps ℕ).add 1 {0} = [(0, {2}), (1, {0})] := by decide
    have h2 : (IndexOps.removeAll [(.logexp, {2})] {0} : IndexOps Con).add .logexp {0} = [(.logexp, {2, 0})] := by decide
    simp [setPrior, hd, constrainDomain, constrain, ParamEnv.transf, ParamEnv.live, notebookEnv, logexpTransf, updateAt, h1, h2]
  have e3 : setPrior (notebookEnv.live notebookPriors [2, 3, 1]) ⟨[2, 3, 1], [(0, {2}), (1, {0})], [(.logexp, {2, 0})]⟩ {1} 1 =
      (none, ⟨[2, 3, 1], [(0, {2}), (1, {0, 1})], [(.logexp, {0, 1, 2})]⟩) := by
    have h1 : (IndexOps.removeAll [(0, {2}), (1, {0})] {1} : IndexOps ℕ).add 1 {1} = [(0, {2}), (1, {0, 1})] := by decide
    have h2 : (IndexOps.removeAll [(.logexp, {2, 0})] {1} : IndexOps Con).add .logexp {1} = [(.logexp, {0, 1, 2})] := by decide
    simp [setPrior, hd, constrainDomain, constrain, ParamEnv.transf, ParamEnv.live, notebookEnv, logexpTransf, updateAt, h1, h2]
  have e1' := e1
  unfold PState.fresh at e1'
  simp only [runLive, notebookOps, List.foldl_cons, List.foldl_nil, POp.run, PState.fresh, e1', e2, e3]
  rfl

theorem notebook_regular (s : PState) (hs : s = ⟨[2, 3, 1 / 3], [(0, {2}), (1, {0, 1})], [(.logexp, {0, 1, 2})]⟩) :
    s.Regular (notebookEnv.live notebookPriors s.params) := by
  subst hs
  have hx : ∀ i ∈ ({0, 1, 2} : Finset ℕ), (0 : ℝ) < ([2, 3, 1 / 3] : List ℝ).getD i 0 := by
    intro i hi
    simp only [Finset.mem_insert, Finset.mem_singleton] at hi
    rcases hi with rfl | rfl | rfl <;> simp
  have hB : ∀ k, (notebookPriors k [2, 3, 1 / 3]).Behaves ∧ (notebookPriors k [2, 3, 1 / 3]).domain = some "positive" := by
    intro k
    unfold notebookPriors
    split_ifs
    · have := C53_inverse_gamma 0.5 0.5
      exact ⟨⟨this.2.1, this.2.2.1, .inl this.2.2.2⟩, rfl⟩
    · refine ⟨⟨fun x hx => ⟨_, _, rfl, rfl, ?_⟩, fun _ => rfl, .inl fun _ => rfl⟩, rfl⟩
      obtain ⟨v, g, h1, h2, h3⟩ := (C53_inverse_gamma 0.5 (1 / 3)).2.1 x hx
      obtain rfl := PyNum.scalar.inj h2
      have e : ∀ y, (-gammaln 0.5 + 0.5 * Real.log 1 - (0.5 + 1) * Real.log y - ([2, 3, 1 / 3] : List ℝ).getD 2 0 / y) =
          (inverseGammaPrior 0.5 (1 / 3)).logDensity y - 0.5 * Real.log (1 / 3) := fun y => by
        show _ = -gammaln 0.5 + 0.5 * Real.log (1 / 3) - (0.5 + 1) * Real.log y - (1 / 3) / y - 0.5 * Real.log (1 / 3)
        rw [Real.log_one]
        simp only [List.getD_cons_succ, List.getD_cons_zero]
        ring
      exact (h3.sub_const (0.5 * Real.log (1 / 3))).congr_of_eventuallyEq (Filter.Eventually.of_forall e)
  refine ⟨?_, ?_, rfl, ?_⟩
  · rintro i p ⟨e, he, rfl, hi⟩
    refine ⟨(hB _).1, ?_⟩
    rw [show ((notebookEnv.live notebookPriors [2, 3, 1 / 3]).prior e.1).domain = some "positive" from (hB _).2]
    refine hx i ?_
    simp only [List.mem_cons, List.not_mem_nil, or_false] at he
    rcases he with rfl | rfl
    · simp_all
    · simp only [Finset.mem_insert, Finset.mem_singleton] at hi ⊢
      tauto
  · rintro i c ⟨e, he, rfl, hi⟩ t ht
    rw [List.mem_singleton] at he
    subst he
    have : t = logexpTransf := (Option.some.inj ht).symm
    subst this
    exact logexp_jacobian (hx i hi)
  · intro i hi
    have : i = 0 ∨ i = 1 ∨ i = 2 := by simp at hi; omega
    rcases this with rfl | rfl | rfl
    · exact ((hasDerivAt_id (2 : ℝ)).sub_const (2 * 3))
    · have := ((hasDerivAt_id (3 : ℝ)).const_mul 2).const_sub 2
      refine this.congr_deriv ?_
      show -(2 * 1 : ℝ) = -2
      norm_num
    · exact hasDerivAt_const (1 / 3 : ℝ) (2 - 2 * 3 : ℝ)

/-- C125 in the notebook: at `shape = 1/3`, where the optimizer leaves it, the entry of the gradient is zero, but the derivative of the objective is not. -/
theorem C125_notebook : ∃ s : PState, s = runLive notebookEnv notebookPriors (PState.fresh [2, 3, 1]) notebookOps ∧ s.params = [2, 3, 1 / 3] ∧
    (s.liveGradients notebookEnv notebookPriors).getD 2 0 = 0 ∧ ¬ s.LiveEntryCorrect notebookEnv notebookPriors 2 := by
  refine ⟨_, rfl, by rw [notebook_state], ?_⟩
  have hr := notebook_regular _ notebook_state
  have ho : ∀ op ∈ notebookOps, op.InRange ([2, 3, 1] : List ℝ).length := by simp [notebookOps, POp.InRange]
  have h2 : ([2, 3, 1 / 3] : List ℝ).getD 2 0 = 1 / 3 := rfl
  have h1 := (C125_alone notebookEnv notebookPriors notebook_madePriors [2, 3, 1] notebookOps ho _ rfl hr 2 (by simp) 0 0.5 0.5 [2, 3, 1]
    (by rw [notebook_state]; exact ⟨(0, {2}), by simp, rfl, by simp⟩) (by norm_num) notebook_made.1
    (by rw [notebook_state]; intro e he; have : e = (1, {0, 1}) := by simpa using he.symm
        rw [this]; simp) rfl).2.2 (by rw [notebook_state]; show ([2, 3, 1 / 3] : List ℝ).getD 2 0 = _; rw [h2]; norm_num)
  refine ⟨h1, fun hc => ?_⟩
  have hi : ∀ e ∈ (runLive notebookEnv notebookPriors (PState.fresh [2, 3, 1]) notebookOps).priors, e.1 ≠ 1 → IgnoresParam (notebookPriors e.1) 2 := by
    rw [notebook_state]
    intro e he hne ps u
    simp only [List.mem_cons, List.not_mem_nil, or_false] at he
    rcases he with rfl | rfl
    · rfl
    · exact absurd rfl hne
  have h3 := (C125_missing notebookEnv notebookPriors notebook_madePriors [2, 3, 1] notebookOps ho _ rfl hr 2 (by simp) 1 {0, 1} 0.5 [2, 3, 1]
    (by rw [notebook_state]; simp) (by simp) (by simp) (notebook_made.2 1 one_ne_zero) hi).2 logexpTransf
    (by
      rw [notebook_state]
      refine ⟨⟨0, ⟨(0, {2}), by simp, rfl, by simp⟩, fun e he => ?_⟩, .logexp, ⟨(.logexp, {0, 1, 2}), by simp, rfl, by simp⟩, rfl⟩
      have : e = (1, {0, 1}) := by simpa using he.symm
      rw [this]; simp)
  have h4 := HasDerivAt.unique hc h3
  rw [h1, notebook_state] at h4
  have h5 : (∑ j ∈ ({0, 1} : Finset ℕ), 1 / ([2, 3, 1 / 3] : List ℝ).getD j 0) = 5 / 6 := by
    rw [Finset.sum_pair (by norm_num)]
    show (1 / 2 + 1 / 3 : ℝ) = 5 / 6
    norm_num
  rw [h5] at h4
  have h6 : (0 : ℝ) = 0 - 1 / (Real.exp (1 / 3) - 1) + 5 / 6 := h4
  have h7 : (1 : ℝ) < Real.exp (1 / 3) := Real.one_lt_exp_iff.2 (by norm_num)
  have h8 : Real.exp (1 / 3) = 11 / 5 := by
    have : Real.exp (1 / 3) - 1 ≠ 0 := by linarith
    field_simp at h6
    linarith
  have h9 : Real.exp 1 = (11 / 5) ^ 3 := by
    rw [← h8, ← Real.exp_nat_mul]
    norm_num
  have := Real.exp_one_lt_d9
  rw [h9] at this
  norm_num at this

end Verif
