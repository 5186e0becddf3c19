import Verif.Spec.PriorOptim
import Verif.Props.OptimizerGrad
import Verif.Props.Objective

/-! C126: `optimize` with priors. -/

namespace Verif

theorem slotAt_eq {fk : FK} {k : ℕ} (hk : k < fk.slots.length) : fk.slotAt k = fk.slots[k] := List.getD_eq_getElem _ _ hk

theorem mem_constrainedIx {fk : FK} {k : ℕ} (hk : k < fk.slots.length) : k ∈ fk.constrainedIx ↔ (fk.slotAt k).logexp = true := by
  unfold FK.constrainedIx
  rw [Finset.mem_filter, Finset.mem_range]
  exact ⟨fun h => h.2, fun h => ⟨hk, h⟩⟩

theorem constrainedIx_lt {fk : FK} {k : ℕ} (hk : k ∈ fk.constrainedIx) : k < fk.slots.length := by
  unfold FK.constrainedIx at hk
  rw [Finset.mem_filter, Finset.mem_range] at hk
  exact hk.1

/-- the Jacobian term of paramz is the logarithm of the derivative of the transformation -/
theorem logJacobian_decode {s : Slot} (h : s.logexp = true) (x : ℝ) : logexpTransf.logJacobian (s.decode x) = Real.log (deriv s.decode x) := by
  rw [(hasDerivAt_decode s x).deriv]
  have hp := decode_pos h x
  have h1 : 0 < Real.exp (s.decode x) - 1 := by have := Real.one_lt_exp_iff.2 hp; linarith
  show Real.log (Real.exp (s.decode x) - 1) - s.decode x = _
  unfold Slot.factor
  rw [if_pos h, one_mul, show 1 - Real.exp (-s.decode x) = (Real.exp (s.decode x) - 1) / Real.exp (s.decode x) by rw [Real.exp_neg]; field_simp,
    Real.log_div h1.ne' (Real.exp_pos _).ne', Real.log_exp]

theorem deriv_decode_real {s : Slot} (h : s.logexp = false) (x : ℝ) : Real.log (deriv s.decode x) = 0 := by
  rw [(hasDerivAt_decode s x).deriv]
  unfold Slot.factor
  rw [h]
  simp

theorem sum_union_list (f : ℕ → ℝ) : ∀ (o : IndexOps ℕ) (w : Finset ℕ), (∀ e ∈ o, Disjoint w e.2) → o.Pairwise (fun a b => Disjoint a.2 b.2) →
    ∑ i ∈ o.foldl (fun w e => w ∪ e.2) w, f i = ∑ i ∈ w, f i + (o.map fun e => ∑ i ∈ e.2, f i).sum
  | [], w, _, _ => by simp
  | e :: o, w, h, hp => by
    rw [List.pairwise_cons] at hp
    rw [List.foldl_cons, sum_union_list f o _ (fun a ha => Finset.disjoint_union_left.2 ⟨h a (List.mem_cons_of_mem _ ha), hp.1 a ha⟩) hp.2,
      Finset.sum_union (h e List.mem_cons_self), List.map_cons, List.sum_cons, add_assoc]

section
variable {fk : FK} {p : PriorsOn} (hsuit : p.Suit fk)
include hsuit

theorem suit_pairwise : p.priors.Pairwise fun a b => Disjoint a.2 b.2 := by
  have hk := hsuit.keys
  rw [List.nodup_iff_pairwise_ne, List.pairwise_map] at hk
  refine hk.imp_of_mem fun {a b} ha hb hne => ?_
  rw [Finset.disjoint_left]
  exact fun j h1 h2 => hne (hsuit.unique a ha b hb j h1 h2)

theorem suit_OK : (fk.priorState p).OK fk.slots.length where
  params := List.length_map _
  priors := ⟨hsuit.keys, by rintro i k k' ⟨e, he, rfl, hi⟩ ⟨e', he', rfl, hi'⟩; exact hsuit.unique e he e' he' i hi hi',
    by rintro i k ⟨e, he, rfl, hi⟩; exact hsuit.range e he i hi⟩
  constraints := ⟨by simp [FK.priorState], by
      rintro i k k' ⟨e, he, rfl, hi⟩ ⟨e', he', rfl, hi'⟩
      rw [List.mem_singleton.1 he, List.mem_singleton.1 he'],
    by
      rintro i k ⟨e, he, rfl, hi⟩
      rw [List.mem_singleton.1 he] at hi
      exact constrainedIx_lt hi⟩

end

/-- the parameters at a point of the optimiser -/
theorem params_at {fk : FK} (hst : fk.Stored) {x : List ℝ} (hx : x.length = fk.slots.length) (p : PriorsOn) {j : ℕ} (hj : j < fk.slots.length) :
    ((fk.setOptimizerArray x).priorState p).params.getD j 0 = (fk.slotAt j).decode (x.getD j 0) := by
  unfold FK.priorState
  simp only
  rw [setOptimizerArray_slots, List.getD_eq_getElem _ _ (by rw [List.length_map]; exact hj), List.getElem_map, read_setOptimizerArray hst hx hj, slotAt_eq hj]

theorem slotAt_set (fk : FK) (x : List ℝ) (j : ℕ) : (fk.setOptimizerArray x).slotAt j = fk.slotAt j := by
  unfold FK.slotAt
  rw [setOptimizerArray_slots]

theorem suit_set {fk : FK} {p : PriorsOn} (h : p.Suit fk) (x : List ℝ) : p.Suit (fk.setOptimizerArray x) :=
  ⟨h.keys, h.unique, by rw [setOptimizerArray_slots]; exact h.range, h.behaves, by simp only [slotAt_set]; exact h.domain⟩

/-- C126: the log prior of the model at a point of the optimiser is the log density of the point. -/
theorem C126_log_prior (fk : FK) (hst : fk.Stored) (p : PriorsOn) (hsuit : p.Suit fk) (x : List ℝ) (hx : x.length = fk.slots.length) :
    ((fk.setOptimizerArray x).priorState p).logPrior p.env = fk.logPriorAt p x := by
  have hpar : ∀ e ∈ p.priors, ∀ j ∈ e.2, ((fk.setOptimizerArray x).priorState p).params.getD j 0 = (fk.slotAt j).decode (x.getD j 0) :=
    fun e he j hj => params_at hst hx p (hsuit.range e he j hj)
  unfold PState.logPrior FK.logPriorAt
  by_cases h0 : ((fk.setOptimizerArray x).priorState p).priors.size = 0
  · rw [if_pos h0]
    have := size_zero h0
    exact (sum_zero_list p.priors _ fun e he => by rw [this e he, Finset.sum_empty]).symm
  · rw [if_neg h0]
    simp only [Finset.sum_add_distrib]
    rw [show ∀ (l : IndexOps ℕ) (f g : ℕ × Finset ℕ → ℝ), (l.map fun e => f e + g e).sum = (l.map f).sum + (l.map g).sum from fun l f g => List.sum_map_add]
    congr 1
    · congr 1
      refine List.map_congr_left fun e he => ?_
      rw [show (p.env.prior e.1).lnpdf = (p.object e.1).lnpdf from rfl, (hsuit.behaves e he).2.1]
      unfold PyNum.sum takeIx
      simp only
      rw [List.map_map, sort_map_sum]
      refine Finset.sum_congr rfl fun j hj => ?_
      show (p.object e.1).logDensity (((fk.setOptimizerArray x).priorState p).params.getD j 0) = _
      rw [hpar e he j hj]
    · have hcon : ((fk.setOptimizerArray x).priorState p).constraints = [(.logexp, (fk.setOptimizerArray x).constrainedIx)] := rfl
      rw [hcon, List.foldl_cons, List.foldl_nil, zero_add]
      unfold jacobianTerm
      show ((((fk.setOptimizerArray x).constrainedIx).sort.filter fun i => decide (i ∈ ((fk.setOptimizerArray x).priorState p).indicesWithPrior)).map
        fun i => logexpTransf.logJacobian (((fk.setOptimizerArray x).priorState p).params.getD i 0)).sum = _
      have e1 := sum_union_list (fun j => Real.log (deriv (fk.slotAt j).decode (x.getD j 0))) p.priors ∅ (fun _ _ => Finset.disjoint_empty_left _) (suit_pairwise hsuit)
      rw [Finset.sum_empty, zero_add] at e1
      rw [← e1, ← List.sum_toFinset _ ((Finset.sort_nodup _ _).filter _), List.toFinset_filter, Finset.sort_toFinset]
      have hW : ∀ i, i ∈ p.priors.foldl (fun w e => w ∪ e.2) ∅ ↔ ∃ e ∈ p.priors, i ∈ e.2 := mem_indicesWithPrior ((fk.setOptimizerArray x).priorState p)
      refine Finset.sum_subset_zero_on_sdiff ?_ ?_ ?_
      · intro i hi
        rw [Finset.mem_filter, decide_eq_true_eq] at hi
        exact hi.2
      · intro i hi
        rw [Finset.mem_sdiff, Finset.mem_filter, decide_eq_true_eq] at hi
        obtain ⟨e, he, hie⟩ := (hW i).1 hi.1
        have hlt := hsuit.range e he i hie
        refine deriv_decode_real ?_ _
        by_contra hc
        refine hi.2 ⟨(mem_constrainedIx (by rw [setOptimizerArray_slots]; exact hlt)).2 ?_, hi.1⟩
        rw [slotAt_set]
        simpa using hc
      · intro i hi
        rw [Finset.mem_filter, decide_eq_true_eq] at hi
        obtain ⟨e, he, hie⟩ := (hW i).1 hi.2
        have hlt := hsuit.range e he i hie
        rw [hpar e he i hie]
        refine logJacobian_decode ?_ _
        rw [← slotAt_set fk x]
        exact (mem_constrainedIx (by rw [setOptimizerArray_slots]; exact hlt)).1 hi.1

theorem priorState_set {fk : FK} (hst : fk.Stored) {x : List ℝ} (hx : x.length = fk.slots.length) (p : PriorsOn) {k : ℕ} (hk : k < fk.slots.length) (t : ℝ) :
    (fk.setOptimizerArray (x.set k t)).priorState p = ((fk.setOptimizerArray x).priorState p).setParam k ((fk.slotAt k).decode t) := by
  have h1 : ((fk.setOptimizerArray (x.set k t)).priorState p).params = ((fk.setOptimizerArray x).priorState p).params.set k ((fk.slotAt k).decode t) := by
    have l1 : ((fk.setOptimizerArray (x.set k t)).priorState p).params.length = fk.slots.length := by
      unfold FK.priorState; simp only [List.length_map, setOptimizerArray_slots]
    have l2 : ((fk.setOptimizerArray x).priorState p).params.length = fk.slots.length := by
      unfold FK.priorState; simp only [List.length_map, setOptimizerArray_slots]
    refine List.ext_getElem (by rw [l1, List.length_set, l2]) fun j h1 h2 => ?_
    have hj : j < fk.slots.length := l1 ▸ h1
    have e1 := params_at hst (x := x.set k t) (by rw [List.length_set, hx]) p hj
    have e2 := getD_set_ite (a := ((fk.setOptimizerArray x).priorState p).params) (by rw [l2]; exact hj) k ((fk.slotAt k).decode t)
    rw [params_at hst hx p hj] at e2
    rw [getD_set_ite (by rw [hx]; exact hj)] at e1
    rw [← List.getD_eq_getElem _ 0 h1, ← List.getD_eq_getElem _ 0 h2, e1, e2]
    by_cases hjk : j = k
    · rw [if_pos hjk, if_pos hjk, hjk]
    · rw [if_neg hjk, if_neg hjk]
  unfold PState.setParam
  rw [← h1]
  unfold FK.priorState FK.constrainedIx
  simp only [setOptimizerArray_slots]

theorem env_gradient (p : PriorsOn) (xs : List ℝ) (i : ℕ) : (p.env.gradient xs).getD i 0 = 0 := by
  have : p.env.gradient xs = xs.map fun _ => (0 : ℝ) := rfl
  rw [this]
  by_cases h : i < xs.length
  · rw [List.getD_eq_getElem _ _ (by rw [List.length_map]; exact h), List.getElem_map]
  · rw [List.getD_eq_default _ _ (by rw [List.length_map]; omega)]

theorem env_likelihood (p : PriorsOn) : p.env.logLikelihood = fun _ => 0 := rfl

theorem suit_regular {fk : FK} (hst : fk.Stored) {p : PriorsOn} (hsuit : p.Suit fk) {x : List ℝ} (hx : x.length = fk.slots.length) :
    ((fk.setOptimizerArray x).priorState p).Regular p.env where
  priors := by
    rintro i q ⟨e, he, rfl, hi⟩
    have hlt := hsuit.range e he i hi
    refine ⟨hsuit.behaves e he, ?_⟩
    rw [params_at hst hx p hlt, show (p.env.prior e.1).domain = _ from hsuit.domain e he i hi]
    cases hl : (fk.slotAt i).logexp with
    | true => exact decode_pos hl _
    | false => exact Set.mem_univ _
  transf := by
    rintro i c ⟨e, he, rfl, hi⟩ t ht
    rw [List.mem_singleton.1 he] at hi ht
    have ht' : logexpTransf = t := Option.some.inj ht
    subst ht'
    have hlt : i < fk.slots.length := by have := constrainedIx_lt hi; rwa [setOptimizerArray_slots] at this
    rw [params_at hst hx p hlt]
    refine logexp_jacobian (decode_pos ?_ _)
    have := (mem_constrainedIx (by rw [setOptimizerArray_slots]; exact hlt)).1 hi
    rwa [slotAt_set] at this
  size := List.length_map _
  gradient := by
    intro i hi
    rw [env_gradient, env_likelihood]
    exact hasDerivAt_const _ _

/-- what the gradient lacks by C55, in the coordinates of the optimiser -/
theorem prior_lack {fk : FK} (hst : fk.Stored) {p : PriorsOn} (hsuit : p.Suit fk) {x : List ℝ} (hx : x.length = fk.slots.length) {k : ℕ} (hk : k < fk.slots.length) :
    (((fk.slotAt k).logexp = true ∧ p.NotLast k) → (fk.slotAt k).factor ((fk.slotAt k).decode (x.getD k 0)) 1 * missingTerm p.env ((fk.setOptimizerArray x).priorState p) k =
      Real.exp (-(fk.slotAt k).decode (x.getD k 0))) ∧
    (¬ ((fk.slotAt k).logexp = true ∧ p.NotLast k) → missingTerm p.env ((fk.setOptimizerArray x).priorState p) k = 0) := by
  obtain ⟨m1, m2⟩ := missingTerm_eq (env := p.env) (suit_OK (suit_set hsuit x)) k
  constructor
  · rintro ⟨hl, e, he, hke, hlast⟩
    have hL : ((fk.setOptimizerArray x).priorState p).Lacking p.env k logexpTransf :=
      ⟨⟨e.1, ⟨e, he, rfl, hke⟩, hlast⟩, .logexp, ⟨_, List.mem_singleton.2 rfl, rfl, (mem_constrainedIx (by rw [setOptimizerArray_slots]; exact hk)).2 (by rw [slotAt_set]; exact hl)⟩, rfl⟩
    rw [m1 _ hL, params_at hst hx p hk]
    show _ * (1 / (Real.exp ((fk.slotAt k).decode (x.getD k 0)) - 1)) = _
    unfold Slot.factor
    rw [if_pos hl]
    have h1 : Real.exp ((fk.slotAt k).decode (x.getD k 0)) - 1 ≠ 0 := by have := Real.one_lt_exp_iff.2 (decode_pos hl (x.getD k 0)); linarith
    rw [Real.exp_neg]
    field_simp
  · intro hn
    refine m2 fun t ht => hn ?_
    obtain ⟨⟨q, ⟨e, he, rfl, hke⟩, hlast⟩, c, ⟨e', he', rfl, hke'⟩, -⟩ := ht
    rw [List.mem_singleton.1 he'] at hke'
    have := (mem_constrainedIx (by rw [setOptimizerArray_slots]; exact hk)).1 hke'
    rw [slotAt_set] at this
    exact ⟨this, e, he, hke, hlast⟩

/-- the derivative of the log prior in a coordinate of the optimiser -/
theorem prior_deriv {fk : FK} (hst : fk.Stored) {p : PriorsOn} (hsuit : p.Suit fk) {x : List ℝ} (hx : x.length = fk.slots.length) {k : ℕ} (hk : k < fk.slots.length) :
    HasDerivAt (fun t => -fk.logPriorAt p (x.set k t))
      ((fk.slotAt k).factor ((fk.slotAt k).decode (x.getD k 0)) 1 *
        (-(((fk.setOptimizerArray x).priorState p).logPriorGradients p.env).getD k 0 - missingTerm p.env ((fk.setOptimizerArray x).priorState p) k)) (x.getD k 0) := by
  have hk' : k < (fk.setOptimizerArray x).slots.length := by rw [setOptimizerArray_slots]; exact hk
  have hok := suit_OK (suit_set hsuit x)
  have hr := suit_regular hst hsuit hx
  have hd := objective_deriv hok hr hk'
  rw [params_at hst hx p hk] at hd
  have h2 := hd.comp (x.getD k 0) (hasDerivAt_decode (fk.slotAt k) (x.getD k 0))
  refine (h2.congr_of_eventuallyEq (Filter.Eventually.of_forall fun t => ?_)).congr_deriv ?_
  · show -fk.logPriorAt p (x.set k t) = (((fk.setOptimizerArray x).priorState p).setParam k ((fk.slotAt k).decode t)).objective p.env
    rw [← priorState_set hst hx p hk, ← C126_log_prior fk hst p hsuit _ (by rw [List.length_set, hx])]
    unfold PState.objective
    rw [env_likelihood, zero_add]
  · have hl2 : (((fk.setOptimizerArray x).priorState p).logPriorGradients p.env).length = fk.slots.length := by
      by_cases h0 : ((fk.setOptimizerArray x).priorState p).priors.size = 0
      · unfold PState.logPriorGradients
        rw [if_pos h0, List.length_map, hok.params, setOptimizerArray_slots]
      · rw [(logPriorGradients_getD hok hr hk' h0).1, setOptimizerArray_slots]
    have hl1 : (p.env.gradient ((fk.setOptimizerArray x).priorState p).params).length = fk.slots.length := by rw [hr.size, hok.params, setOptimizerArray_slots]
    have hog : (((fk.setOptimizerArray x).priorState p).objectiveGradients p.env).getD k 0 = -(((fk.setOptimizerArray x).priorState p).logPriorGradients p.env).getD k 0 := by
      unfold PState.objectiveGradients
      rw [List.getD_eq_getElem _ _ (by rw [List.length_map, List.length_zip, hl1, hl2]; omega), List.getElem_map, List.getElem_zip,
        ← List.getD_eq_getElem (((fk.setOptimizerArray x).priorState p).logPriorGradients p.env) (0 : ℝ) (by rw [hl2]; exact hk),
        ← List.getD_eq_getElem (p.env.gradient ((fk.setOptimizerArray x).priorState p).params) (0 : ℝ) (by rw [hl1]; exact hk), env_gradient, zero_add]
    rw [hog]
    exact mul_comm _ _

/-- the gradients of a model with priors, against those of the model without -/
theorem priorGrads_run {useCache : Bool} {sv : Solvers} {e : Env} {i : ℕ} {p : PriorsOn} {x : List ℝ} {w : World} {m : LLGP} (hw : w.heap i = some m) (hst : m.fk.Stored)
    (hsuit : p.Suit m.fk) (hx : x.length = m.fk.slots.length) {g : List ℝ} (hg : (gradsAt useCache sv e i x w).1 = .ok g) :
    ∃ g', (priorGradsAt useCache sv e i p x w).1 = .ok g' ∧ g'.length = x.length ∧ ∀ k < x.length, g'.getD k 0 = g.getD k 0 +
      (m.fk.slotAt k).factor ((m.fk.slotAt k).decode (x.getD k 0)) 1 * -(((m.fk.setOptimizerArray x).priorState p).logPriorGradients p.env).getD k 0 := by
  unfold gradsAt at hg
  rw [py_bind, modify_run hw] at hg
  simp only at hg
  rw [py_bind] at hg
  unfold priorGradsAt
  rw [py_bind, modify_run hw]
  simp only
  rw [py_bind]
  have hkeep := KeepsFK.parametersChanged useCache sv e i (w.put i { m with fk := m.fk.setOptimizerArray x }) i
  rw [put_heap] at hkeep
  rcases hpc : parametersChanged useCache sv e i (w.put i { m with fk := m.fk.setOptimizerArray x }) with ⟨r, w'⟩
  rw [hpc] at hg hkeep
  cases r with
  | error y => exact nomatch hg
  | ok u =>
    simp only at hg hkeep ⊢
    rw [py_bind] at hg ⊢
    cases hm' : w'.heap i with
    | none =>
      rw [hm'] at hkeep
      exact nomatch hkeep
    | some m' =>
      rw [hm'] at hkeep
      have hfk : m'.fk = m.fk.setOptimizerArray x := Option.some.inj hkeep
      have hself : self i w' = (.ok m', w') := by unfold self; rw [hm']
      rw [hself] at hg ⊢
      simp only at hg ⊢
      have hg' : m'.objectiveGrads = g := Except.ok.inj hg
      have hok := suit_OK (suit_set hsuit x)
      have hr := suit_regular hst hsuit hx
      have hll : (((m.fk.setOptimizerArray x).priorState p).logPriorGradients p.env).length = m.fk.slots.length := by
        by_cases hz : m.fk.slots.length = 0
        · unfold PState.logPriorGradients
          have h0 : ((m.fk.setOptimizerArray x).priorState p).priors.size = 0 := by
            show (p.priors.map fun e => e.2.card).sum = 0
            refine List.sum_eq_zero fun c hc => ?_
            obtain ⟨e, he, rfl⟩ := List.mem_map.1 hc
            rw [Finset.card_eq_zero]
            refine Finset.eq_empty_of_forall_notMem fun j hj => ?_
            have := hsuit.range e he j hj
            omega
          rw [if_pos h0, List.length_map, hok.params, setOptimizerArray_slots]
        · by_cases h0 : ((m.fk.setOptimizerArray x).priorState p).priors.size = 0
          · unfold PState.logPriorGradients
            rw [if_pos h0, List.length_map, hok.params, setOptimizerArray_slots]
          · rw [(logPriorGradients_getD hok hr (i := 0) (by rw [setOptimizerArray_slots]; omega) h0).1, setOptimizerArray_slots]
      refine ⟨m'.priorGrads p, rfl, ?_, fun k hk => ?_⟩
      · unfold LLGP.priorGrads
        rw [List.length_map, List.length_zip, hfk, hll, setOptimizerArray_slots, hx, min_self]
      · have hk' : k < m.fk.slots.length := hx ▸ hk
        rw [← hg']
        unfold LLGP.priorGrads LLGP.objectiveGrads
        rw [hfk]
        rw [List.getD_eq_getElem _ _ (by rw [List.length_map, List.length_zip, hll, setOptimizerArray_slots]; omega), List.getElem_map, List.getElem_zip,
          List.getD_eq_getElem _ _ (by rw [List.length_map, setOptimizerArray_slots]; exact hk'), List.getElem_map,
          ← List.getD_eq_getElem (((m.fk.setOptimizerArray x).priorState p).logPriorGradients p.env) (0 : ℝ) (by rw [hll]; exact hk')]
        have hs : (m.fk.setOptimizerArray x).slots[k]'(by rw [setOptimizerArray_slots]; exact hk') = m.fk.slotAt k := by
          rw [slotAt_eq hk']
          simp only [setOptimizerArray_slots]
        rw [hs, show (m.fk.setOptimizerArray x).read (m.fk.slotAt k) = (m.fk.slotAt k).decode (x.getD k 0) by rw [slotAt_eq hk']; exact read_setOptimizerArray hst hx hk',
          factor_mul _ _ (-(_ + _)), factor_mul _ _ (-(_ + 0))]
        ring

/-- the average gradient with priors -/
theorem prior_average (sv : Solvers) (hs : sv.Fit) (m : LLGP) (P : ℕ) (h : m.OK P) (hn : 0 < m.nIt) (hS : m.fk.Sound) (ht : m.fk.Tunable)
    (hd : ∀ ad ∈ m.fk.activeDims.map Prod.fst, ad.Nodup) (p : PriorsOn) (hsuit : p.Suit m.fk) (x : List ℝ) (hlen : x.length = m.fk.optimizerArray.length)
    (hp : ∀ k ∈ (m.fk.setOptimizerArray x).kernels, k.PeriodOK)
    (hx : ∀ K gks, genGridKernel (m.fk.setOptimizerArray x) m.dists m.interp m.lens = .ok (K, gks) →
      ExactSolves sv K m.n ((m.fk.setOptimizerArray x).skiFull m.axesOf (m.fk.setOptimizerArray x).extraOf m.gp.Xs) m.tol)
    (e : Env) (he : e.Works) (hi : e.interrupt = none) (useCache : Bool) (w : World) (i : ℕ) (hw : w.heap i = some m) :
    ∃ g : (Fin m.nIt → Fin m.n → Bool) → List ℝ, (∀ z, (priorGradsAt useCache sv { e with z := tableBits z } i p x w).1 = .ok (g z) ∧ (g z).length = x.length) ∧
      ∀ k < x.length, HasDerivAt (fun t => m.posteriorAt (m.fk.setOptimizerArray x).extraOf p (x.set k t))
        ((∑ z, (g z).getD k 0) / 2 ^ (m.nIt * m.n) -
          (m.fk.slotAt k).factor ((m.fk.slotAt k).decode (x.getD k 0)) 1 * missingTerm p.env ((m.fk.setOptimizerArray x).priorState p) k) (x.getD k 0) := by
  have hl : x.length = m.fk.slots.length := by rw [hlen]; exact List.length_map _
  have hst := ht.stored h.ready.wf
  obtain ⟨g, g1, g2⟩ := C91_gradient sv hs m P h hn hS ht hd x hlen hp hx e he hi useCache w i hw
  have hrun := fun z => priorGrads_run (p := p) hw hst hsuit hl (g1 z).1
  choose g' h1 h2 h3 using hrun
  refine ⟨g', fun z => ⟨h1 z, h2 z⟩, fun k hk => ?_⟩
  have hk' : k < m.fk.slots.length := hl ▸ hk
  have hsum := (g2 k hk).add (prior_deriv hst hsuit hl hk')
  refine (hsum.congr_of_eventuallyEq (Filter.Eventually.of_forall fun t => ?_)).congr_deriv ?_
  · show m.objectiveAt _ _ - m.fk.logPriorAt p _ = m.objectiveAt _ _ + -m.fk.logPriorAt p _
    ring
  · have hcard : (∑ _z : Fin m.nIt → Fin m.n → Bool, (1 : ℝ)) = 2 ^ (m.nIt * m.n) := by
      rw [Finset.sum_const, Finset.card_univ, Fintype.card_fun, Fintype.card_fun, Fintype.card_bool, Fintype.card_fin, Fintype.card_fin, nsmul_eq_mul, mul_one, ← pow_mul, mul_comm]
      norm_cast
    have h2n : (2 : ℝ) ^ (m.nIt * m.n) ≠ 0 := by positivity
    have e1 : ∑ z, (g' z).getD k 0 = ∑ z, (g z).getD k 0 + 2 ^ (m.nIt * m.n) *
        ((m.fk.slotAt k).factor ((m.fk.slotAt k).decode (x.getD k 0)) 1 * -(((m.fk.setOptimizerArray x).priorState p).logPriorGradients p.env).getD k 0) := by
      rw [Finset.sum_congr rfl fun z _ => h3 z k hk, Finset.sum_add_distrib, ← hcard, Finset.sum_mul]
      congr 1
      exact Finset.sum_congr rfl fun z _ => (one_mul _).symm
    rw [e1, add_div, mul_div_cancel_left₀ _ h2n]
    ring

/-- C126 (partial): with exact linear solves, the gradients the optimiser gets for a model whose parameters have priors average, over all equally likely outcomes of the probes, to the
partial derivatives of the negative log posterior density in the optimiser's coordinates, but in the coordinates of positive parameters whose prior is not the last of the dictionary. Missing
for the full claim, and false: these (`C126_lacking`). -/
theorem C126_gradient_partial (sv : Solvers) (hs : sv.Fit) (m : LLGP) (P : ℕ) (h : m.OK P) (hn : 0 < m.nIt) (hS : m.fk.Sound) (ht : m.fk.Tunable)
    (hd : ∀ ad ∈ m.fk.activeDims.map Prod.fst, ad.Nodup) (p : PriorsOn) (hsuit : p.Suit m.fk) (x : List ℝ) (hlen : x.length = m.fk.optimizerArray.length)
    (hp : ∀ k ∈ (m.fk.setOptimizerArray x).kernels, k.PeriodOK)
    (hx : ∀ K gks, genGridKernel (m.fk.setOptimizerArray x) m.dists m.interp m.lens = .ok (K, gks) →
      ExactSolves sv K m.n ((m.fk.setOptimizerArray x).skiFull m.axesOf (m.fk.setOptimizerArray x).extraOf m.gp.Xs) m.tol)
    (e : Env) (he : e.Works) (hi : e.interrupt = none) (useCache : Bool) (w : World) (i : ℕ) (hw : w.heap i = some m) :
    ∃ g : (Fin m.nIt → Fin m.n → Bool) → List ℝ, (∀ z, (priorGradsAt useCache sv { e with z := tableBits z } i p x w).1 = .ok (g z) ∧ (g z).length = x.length) ∧
      ∀ k < x.length, ¬ ((m.fk.slotAt k).logexp = true ∧ p.NotLast k) →
        HasDerivAt (fun t => m.posteriorAt (m.fk.setOptimizerArray x).extraOf p (x.set k t)) ((∑ z, (g z).getD k 0) / 2 ^ (m.nIt * m.n)) (x.getD k 0) := by
  have hl : x.length = m.fk.slots.length := by rw [hlen]; exact List.length_map _
  obtain ⟨g, g1, g2⟩ := prior_average sv hs m P h hn hS ht hd p hsuit x hlen hp hx e he hi useCache w i hw
  refine ⟨g, g1, fun k hk hnl => ?_⟩
  have := g2 k hk
  rwa [(prior_lack (ht.stored h.ready.wf) hsuit hl (hl ▸ hk)).2 hnl, mul_zero, sub_zero] at this

/-- C126: in the coordinates of the other parameters the gradients average to the derivative plus `exp (-θ)`, where `θ` is the parameter: they are never right. -/
theorem C126_lacking (sv : Solvers) (hs : sv.Fit) (m : LLGP) (P : ℕ) (h : m.OK P) (hn : 0 < m.nIt) (hS : m.fk.Sound) (ht : m.fk.Tunable)
    (hd : ∀ ad ∈ m.fk.activeDims.map Prod.fst, ad.Nodup) (p : PriorsOn) (hsuit : p.Suit m.fk) (x : List ℝ) (hlen : x.length = m.fk.optimizerArray.length)
    (hp : ∀ k ∈ (m.fk.setOptimizerArray x).kernels, k.PeriodOK)
    (hx : ∀ K gks, genGridKernel (m.fk.setOptimizerArray x) m.dists m.interp m.lens = .ok (K, gks) →
      ExactSolves sv K m.n ((m.fk.setOptimizerArray x).skiFull m.axesOf (m.fk.setOptimizerArray x).extraOf m.gp.Xs) m.tol)
    (e : Env) (he : e.Works) (hi : e.interrupt = none) (useCache : Bool) (w : World) (i : ℕ) (hw : w.heap i = some m) (k : ℕ) (hk : k < x.length)
    (hpos : (m.fk.slotAt k).logexp = true) (hnl : p.NotLast k) :
    ∃ g : (Fin m.nIt → Fin m.n → Bool) → List ℝ, (∀ z, (priorGradsAt useCache sv { e with z := tableBits z } i p x w).1 = .ok (g z) ∧ (g z).length = x.length) ∧
      HasDerivAt (fun t => m.posteriorAt (m.fk.setOptimizerArray x).extraOf p (x.set k t))
        ((∑ z, (g z).getD k 0) / 2 ^ (m.nIt * m.n) - Real.exp (-(m.fk.slotAt k).decode (x.getD k 0))) (x.getD k 0) ∧
      ¬ HasDerivAt (fun t => m.posteriorAt (m.fk.setOptimizerArray x).extraOf p (x.set k t)) ((∑ z, (g z).getD k 0) / 2 ^ (m.nIt * m.n)) (x.getD k 0) := by
  have hl : x.length = m.fk.slots.length := by rw [hlen]; exact List.length_map _
  obtain ⟨g, g1, g2⟩ := prior_average sv hs m P h hn hS ht hd p hsuit x hlen hp hx e he hi useCache w i hw
  have := g2 k hk
  rw [(prior_lack (ht.stored h.ready.wf) hsuit hl (hl ▸ hk)).1 ⟨hpos, hnl⟩] at this
  refine ⟨g, g1, this, fun hc => ?_⟩
  have h1 := HasDerivAt.unique hc this
  have h2 := Real.exp_pos (-(m.fk.slotAt k).decode (x.getD k 0))
  linarith

/-- C126: with one prior object in use the gradients are right in every coordinate. -/
theorem C126_one_prior (sv : Solvers) (hs : sv.Fit) (m : LLGP) (P : ℕ) (h : m.OK P) (hn : 0 < m.nIt) (hS : m.fk.Sound) (ht : m.fk.Tunable)
    (hd : ∀ ad ∈ m.fk.activeDims.map Prod.fst, ad.Nodup) (p : PriorsOn) (hsuit : p.Suit m.fk) (hone : p.priors.length = 1) (x : List ℝ) (hlen : x.length = m.fk.optimizerArray.length)
    (hp : ∀ k ∈ (m.fk.setOptimizerArray x).kernels, k.PeriodOK)
    (hx : ∀ K gks, genGridKernel (m.fk.setOptimizerArray x) m.dists m.interp m.lens = .ok (K, gks) →
      ExactSolves sv K m.n ((m.fk.setOptimizerArray x).skiFull m.axesOf (m.fk.setOptimizerArray x).extraOf m.gp.Xs) m.tol)
    (e : Env) (he : e.Works) (hi : e.interrupt = none) (useCache : Bool) (w : World) (i : ℕ) (hw : w.heap i = some m) :
    ∃ g : (Fin m.nIt → Fin m.n → Bool) → List ℝ, (∀ z, (priorGradsAt useCache sv { e with z := tableBits z } i p x w).1 = .ok (g z) ∧ (g z).length = x.length) ∧
      ∀ k < x.length, HasDerivAt (fun t => m.posteriorAt (m.fk.setOptimizerArray x).extraOf p (x.set k t)) ((∑ z, (g z).getD k 0) / 2 ^ (m.nIt * m.n)) (x.getD k 0) := by
  obtain ⟨g, g1, g2⟩ := C126_gradient_partial sv hs m P h hn hS ht hd p hsuit x hlen hp hx e he hi useCache w i hw
  refine ⟨g, g1, fun k hk => g2 k hk ?_⟩
  rintro ⟨-, a, ha, -, hlast⟩
  obtain ⟨b, hb⟩ := List.length_eq_one_iff.1 hone
  rw [hb, List.mem_singleton] at ha
  exact hlast b (by rw [hb]; rfl) (by rw [ha])

theorem reconstrain {L ix : Finset ℕ} (h : ix ⊆ L) : (IndexOps.removeAll [(Con.logexp, L)] ix).add .logexp ix = [(Con.logexp, L)] := by
  have e : IndexOps.removeAll [(Con.logexp, L)] ix = if L \ ix = ∅ then [] else [(Con.logexp, L \ ix)] := by
    unfold IndexOps.removeAll IndexOps.remove
    by_cases h0 : L \ ix = ∅
    · rw [if_pos h0]
      simp [h0]
    · rw [if_neg h0]
      simp [h0]
  rw [e]
  split_ifs with h0
  · have : L = ix := (Finset.sdiff_eq_empty_iff_subset.1 h0).antisymm h
    subst this
    simp [IndexOps.add]
  · simp [IndexOps.add, Finset.sdiff_union_of_subset h]

theorem key_remove {o : IndexOps ℕ} {k : ℕ} {ix : Finset ℕ} {e : ℕ × Finset ℕ} (h : e ∈ o.remove k ix) : ∃ e' ∈ o, e'.1 = e.1 := by
  unfold IndexOps.remove at h
  obtain ⟨a, ha, rfl⟩ := List.mem_map.1 (List.mem_filter.1 h).1
  exact ⟨a, ha, by split_ifs <;> rfl⟩

theorem key_fold {ix : Finset ℕ} {e : ℕ × Finset ℕ} : ∀ (ks : List ℕ) (o : IndexOps ℕ), e ∈ ks.foldl (fun o k => o.remove k ix) o → ∃ e' ∈ o, e'.1 = e.1
  | [], _, h => ⟨e, h, rfl⟩
  | k :: ks, o, h => by
    obtain ⟨e1, h1, h2⟩ := key_fold ks (o.remove k ix) h
    obtain ⟨e2, h3, h4⟩ := key_remove h1
    exact ⟨e2, h3, h4.trans h2⟩

theorem key_replace {o : IndexOps ℕ} {q : ℕ} {ix : Finset ℕ} {e : ℕ × Finset ℕ} (h : e ∈ (o.removeAll ix).add q ix) (hq : e.1 ≠ q) : ∃ e' ∈ o, e'.1 = e.1 := by
  unfold IndexOps.add at h
  split_ifs at h with hk
  · obtain ⟨a, ha, rfl⟩ := List.mem_map.1 h
    obtain ⟨e', h1, h2⟩ := key_fold _ o ha
    exact ⟨e', h1, h2.trans (by split_ifs <;> rfl)⟩
  · rcases List.mem_append.1 h with h | h
    · exact key_fold _ o h
    · rw [List.mem_singleton] at h
      exact absurd (by rw [h]) hq

/-- C126: how such a state comes about. `set_prior` of a prior on positive numbers on positive parameters, or of one on all numbers on the others, changes neither the parameters nor
their constraints, raises nothing, and leaves suitable priors. -/
theorem C126_set_prior (fk : FK) (hpos : ∀ s ∈ fk.slots, s.logexp = true → 0 < fk.read s) (p : PriorsOn) (hsuit : p.Suit fk) (ix : Finset ℕ) (q : ℕ) (hix : ∀ j ∈ ix, j < fk.slots.length)
    (hne : ix.Nonempty) (hb : (p.object q).Behaves) (hdom : ∀ j ∈ ix, (p.object q).domain = if (fk.slotAt j).logexp then some "positive" else some "real") :
    setPrior p.env (fk.priorState p) ix q = (none, fk.priorState { p with priors := (p.priors.removeAll ix).add q ix }) ∧
      PriorsOn.Suit { p with priors := (p.priors.removeAll ix).add q ix } fk := by
  constructor
  · obtain ⟨j, hj⟩ := hne
    have hdj := hdom j hj
    unfold setPrior
    by_cases hl : (fk.slotAt j).logexp = true
    · rw [if_pos hl] at hdj
      have hsub : ix ⊆ fk.constrainedIx := fun i hi => by
        rw [mem_constrainedIx (hix i hi)]
        by_contra hc
        have := hdom i hi
        rw [if_neg hc, hdj] at this
        simp at this
      have hup : updateAt (fk.slots.map fk.read) ix logexpTransf.init = fk.slots.map fk.read := by
        refine List.ext_getElem (by simp [updateAt]) fun i h1 h2 => ?_
        simp only [updateAt, List.getElem_mapIdx]
        split_ifs with hi
        · have hi' := hix i hi
          have hm := (mem_constrainedIx hi').1 (hsub hi)
          rw [slotAt_eq hi'] at hm
          rw [List.getElem_map]
          exact abs_of_pos (hpos _ (List.getElem_mem _) hm)
        · rfl
      have e : constrainDomain p.env { fk.priorState p with priors := ((fk.priorState p).priors.removeAll ix).add q ix } ix (some "positive") =
          (none, fk.priorState { p with priors := (p.priors.removeAll ix).add q ix }) := by
        show ((none : Option PyErr), (⟨updateAt (fk.slots.map fk.read) ix logexpTransf.init, (p.priors.removeAll ix).add q ix,
          (IndexOps.removeAll [(Con.logexp, fk.constrainedIx)] ix).add .logexp ix⟩ : PState)) = _
        rw [hup, reconstrain hsub]
        rfl
      have hdj' : (p.env.prior q).domain = some "positive" := hdj
      rw [hdj']
      simp only [e]
      rw [if_pos fun c hc => absurd hc (by simp [PriorsOn.env])]
    · rw [if_neg hl] at hdj
      have e : constrainDomain p.env { fk.priorState p with priors := ((fk.priorState p).priors.removeAll ix).add q ix } ix (some "real") =
          (none, fk.priorState { p with priors := (p.priors.removeAll ix).add q ix }) := by
        have h0 : ∀ c, p.env.seen c ix = [] := fun _ => rfl
        simp only [constrainDomain, h0, if_true]
        rfl
      have hdj' : (p.env.prior q).domain = some "real" := hdj
      rw [hdj']
      simp only [e]
      rw [if_pos fun c hc => absurd hc (by simp [PriorsOn.env])]
  · have hok := opsOK_replace (suit_OK hsuit).priors q hix
    have hatt : ∀ e ∈ (p.priors.removeAll ix).add q ix, ∀ j ∈ e.2, (j ∈ ix ∧ e.1 = q) ∨ (j ∉ ix ∧ Attached p.priors e.1 j) := fun e he j hj =>
      (attached_replace p.priors q ix e.1 j).1 ⟨e, he, rfl, hj⟩
    refine ⟨hok.keys, fun e he e' he' j h1 h2 => hok.unique j e.1 e'.1 ⟨e, he, rfl, h1⟩ ⟨e', he', rfl, h2⟩, fun e he j hj => hok.range j e.1 ⟨e, he, rfl, hj⟩, fun e he => ?_, fun e he j hj => ?_⟩
    · by_cases hq : e.1 = q
      · show (p.object e.1).Behaves
        rw [hq]
        exact hb
      · obtain ⟨e', he', h1⟩ := key_replace he hq
        show (p.object e.1).Behaves
        rw [← h1]
        exact hsuit.behaves e' he'
    · rcases hatt e he j hj with ⟨h1, h2⟩ | ⟨-, e', he', h1, h2⟩
      · show (p.object e.1).domain = _
        rw [h2]
        exact hdom j h1
      · show (p.object e.1).domain = _
        rw [← h1]
        exact hsuit.domain e' he' j h2

theorem noise_slot {fk : FK} (h : 0 < fk.noise.length) : fk.slots ≠ [] ∧ (fk.slotAt (fk.slots.length - 1)).logexp = true := by
  obtain ⟨n, hn⟩ : ∃ n, fk.noise.length = n + 1 := ⟨fk.noise.length - 1, by omega⟩
  have e : ∃ l, fk.slots = l ++ [.noise n] := by
    unfold FK.slots
    rw [hn, List.range_succ, List.map_append]
    exact ⟨_, (List.append_assoc _ _ _).symm⟩
  obtain ⟨l, hl⟩ := e
  refine ⟨by rw [hl]; simp, ?_⟩
  unfold FK.slotAt
  rw [hl]
  simp [Slot.logexp]

/-- hypotheses of C126 (those about the model are met by the example beside `C91_gradient`): an inverse-gamma prior on the noise of the last output -/
example (fk : FK) (h : 0 < fk.noise.length) : PriorsOn.Suit ⟨[(0, {fk.slots.length - 1})], fun _ => inverseGammaPrior 0.5 0.5⟩ fk where
  keys := by simp
  unique := by
    intro e he e' he' j _ _
    rw [List.mem_singleton] at he he'
    rw [he, he']
  range := by
    intro e he j hj
    rw [List.mem_singleton] at he
    rw [he, Finset.mem_singleton] at hj
    rw [hj]
    have := List.length_pos_iff.2 (noise_slot h).1
    omega
  behaves := fun _ _ => by
    have := C53_inverse_gamma 0.5 0.5
    exact ⟨this.2.1, this.2.2.1, .inl this.2.2.2⟩
  domain := by
    intro e he j hj
    rw [List.mem_singleton] at he
    rw [he, Finset.mem_singleton] at hj
    rw [hj, if_pos (noise_slot h).2]
    rfl

/-- hypotheses of `C126_lacking`: with different prior objects on two parameters, the first of them is not the last of the dictionary -/
example (a b : ℕ) (h : a ≠ b) : PriorsOn.NotLast ⟨[(0, {a}), (1, {b})], fun _ => gammaPrior 1 2⟩ a ∧ ¬ PriorsOn.NotLast ⟨[(0, {a}), (1, {b})], fun _ => gammaPrior 1 2⟩ b := by
  constructor
  · exact ⟨(0, {a}), by simp, by simp, fun l hl => by simp at hl; rw [← hl]; simp⟩
  · rintro ⟨e, he, h1, h2⟩
    simp at he
    rcases he with rfl | rfl
    · rw [Finset.mem_singleton] at h1
      exact h h1.symm
    · exact h2 (1, {b}) rfl rfl

end Verif
