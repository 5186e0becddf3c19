import Verif.Props.Parameterization
import Mathlib.Analysis.SpecialFunctions.ExpDeriv
import Mathlib.Analysis.SpecialFunctions.Log.Deriv

/-! C55: the gradient of the objective. -/

namespace Verif

theorem npPutFrom_length (v : List ℝ) (k : ℕ) (ind : List ℕ) (a : List ℝ) : (npPutFrom v k ind a).length = a.length := by
  induction ind generalizing k a with
  | nil => rfl
  | cons i ind ih =>
    rw [npPutFrom, ih]
    split_ifs
    · rfl
    · exact List.length_set

theorem getD_set_ite {a : List ℝ} {j : ℕ} (hj : j < a.length) (i : ℕ) (x : ℝ) : (a.set i x).getD j 0 = if j = i then x else a.getD j 0 := by
  by_cases h : j = i
  · subst h
    rw [if_pos rfl, List.getD_eq_getElem _ _ (by simpa using hj), List.getElem_set_self]
  · rw [if_neg h, List.getD_eq_getElem?_getD, List.getElem?_set_ne (Ne.symm h), ← List.getD_eq_getElem?_getD]

theorem npPutFrom_getD (v : List ℝ) (hv : v ≠ []) (h : ℕ → ℝ) (ind : List ℕ) (k : ℕ) (a : List ℝ) (hk : ∀ m < ind.length, v.getD ((k + m) % v.length) 0 = h (ind.getD m 0)) {j : ℕ}
    (hj : j < a.length) : (npPutFrom v k ind a).getD j 0 = if j ∈ ind then h j else a.getD j 0 := by
  induction ind generalizing k a with
  | nil => simp [npPutFrom]
  | cons i ind ih =>
    rw [npPutFrom, if_neg hv, ih (k + 1) _ ?_ (by rw [List.length_set]; exact hj)]
    · have h0 := hk 0 (by simp)
      rw [Nat.add_zero] at h0
      rw [h0, List.getD_cons_zero, getD_set_ite hj]
      by_cases h1 : j ∈ ind
      · rw [if_pos h1, if_pos (List.mem_cons_of_mem _ h1)]
      · rw [if_neg h1]
        by_cases h2 : j = i
        · rw [if_pos h2, if_pos (h2 ▸ List.mem_cons_self), h2]
        · rw [if_neg h2, if_neg (by rw [List.mem_cons]; tauto)]
    · intro m hm
      have := hk (m + 1) (by rw [List.length_cons]; omega)
      rw [List.getD_cons_succ] at this
      rw [← this]
      congr 2
      omega

/-- `np.put` with the values of a function, one for each index -/
theorem npPut_map (a : List ℝ) (ind : List ℕ) (h : ℕ → ℝ) {j : ℕ} (hj : j < a.length) : (npPut a ind (ind.map h)).getD j 0 = if j ∈ ind then h j else a.getD j 0 := by
  unfold npPut
  by_cases hn : ind = []
  · subst hn; simp [npPutFrom]
  · refine npPutFrom_getD _ (by simpa using hn) h ind 0 a (fun m hm => ?_) hj
    rw [List.length_map, Nat.zero_add, Nat.mod_eq_of_lt hm, List.getD_eq_getElem _ _ (by simpa using hm), List.getElem_map, List.getD_eq_getElem _ _ hm]

/-- `np.put` with one value -/
theorem npPut_one (a : List ℝ) (ind : List ℕ) (x : ℝ) {j : ℕ} (hj : j < a.length) : (npPut a ind [x]).getD j 0 = if j ∈ ind then x else a.getD j 0 := by
  unfold npPut
  refine npPutFrom_getD _ (by simp) (fun _ => x) ind 0 a (fun m _ => ?_) hj
  rw [List.length_singleton, Nat.mod_one, List.getD_cons_zero]

theorem sort_map_sum (S : Finset ℕ) (f : ℕ → ℝ) : (S.sort.map f).sum = ∑ j ∈ S, f j := by
  rw [← List.sum_toFinset f (S.sort_nodup _), Finset.sort_toFinset]

/-- the derivative of a prior at a point -/
noncomputable def PriorObj.slope (p : PriorObj) (x : ℝ) : ℝ := (p.lnpdfGrad (.scalar x)).item

theorem behaves_slope {p : PriorObj} (h : p.Behaves) {x : ℝ} (hx : x ∈ domainSet p.domain) : HasDerivAt p.logDensity (p.slope x) x := by
  obtain ⟨v, g, -, h2, h3⟩ := h.1 x hx
  unfold PriorObj.slope
  rw [h2]
  exact h3

/-- the gradients put by one prior -/
theorem put_prior {p : PriorObj} (h : p.Behaves) (xs : List ℝ) (S : Finset ℕ) (a : List ℝ) {j : ℕ} (hj : j < a.length) :
    (npPut a S.sort (p.lnpdfGrad (.array (takeIx xs S))).values).getD j 0 = if j ∈ S then p.slope (xs.getD j 0) else a.getD j 0 := by
  rcases h.2.2 with hv | ⟨g, hg⟩
  · rw [hv]
    unfold takeIx PyNum.values
    rw [List.map_map]
    have := npPut_map a S.sort ((fun x => (p.lnpdfGrad (.scalar x)).item) ∘ fun i => xs.getD i 0) hj
    simp only [Finset.mem_sort] at this
    exact this
  · rw [hg]
    unfold PyNum.values
    have := npPut_one a S.sort g hj
    simp only [Finset.mem_sort] at this
    simp only
    rw [this]
    unfold PriorObj.slope
    rw [hg]
    rfl

theorem put_length (p : PriorObj) (xs : List ℝ) (S : Finset ℕ) (a : List ℝ) : (npPut a S.sort (p.lnpdfGrad (.array (takeIx xs S))).values).length = a.length :=
  npPutFrom_length ..

theorem put_fold_length (env : ParamEnv) (xs : List ℝ) (o : IndexOps ℕ) (a : List ℝ) :
    (o.foldl (fun g e => npPut g e.2.sort ((env.prior e.1).lnpdfGrad (.array (takeIx xs e.2))).values) a).length = a.length := by
  induction o generalizing a with
  | nil => rfl
  | cons e o ih => rw [List.foldl_cons, ih, put_length]

/-- the gradients put by all priors, on indices without any -/
theorem put_none (env : ParamEnv) (xs : List ℝ) (o : IndexOps ℕ) (a : List ℝ) (hb : ∀ e ∈ o, e.2.Nonempty → (env.prior e.1).Behaves) {j : ℕ} (hj : j < a.length) (hn : ∀ e ∈ o, j ∉ e.2) :
    (o.foldl (fun g e => npPut g e.2.sort ((env.prior e.1).lnpdfGrad (.array (takeIx xs e.2))).values) a).getD j 0 = a.getD j 0 := by
  induction o generalizing a with
  | nil => rfl
  | cons e o ih =>
    rw [List.foldl_cons, ih _ (fun e he => hb e (List.mem_cons_of_mem _ he)) (by rw [put_length]; exact hj) fun e he => hn e (List.mem_cons_of_mem _ he)]
    rcases Finset.eq_empty_or_nonempty e.2 with h0 | h0
    · rw [h0, Finset.sort_empty]; rfl
    · rw [put_prior (hb e List.mem_cons_self h0) _ _ _ hj, if_neg (hn e List.mem_cons_self)]

/-- the gradients put by all priors, on indices with exactly one -/
theorem put_some (env : ParamEnv) (xs : List ℝ) (o : IndexOps ℕ) (a : List ℝ) (hb : ∀ e ∈ o, e.2.Nonempty → (env.prior e.1).Behaves) {j : ℕ} (hj : j < a.length) (p : ℕ) (he : ∃ e ∈ o, j ∈ e.2)
    (hp : ∀ e ∈ o, j ∈ e.2 → e.1 = p) :
    (o.foldl (fun g e => npPut g e.2.sort ((env.prior e.1).lnpdfGrad (.array (takeIx xs e.2))).values) a).getD j 0 = (env.prior p).slope (xs.getD j 0) := by
  induction o generalizing a with
  | nil => simp at he
  | cons e o ih =>
    rw [List.foldl_cons]
    have hb' : ∀ e ∈ o, e.2.Nonempty → (env.prior e.1).Behaves := fun e he => hb e (List.mem_cons_of_mem _ he)
    have hj' : j < (npPut a e.2.sort ((env.prior e.1).lnpdfGrad (.array (takeIx xs e.2))).values).length := by rw [put_length]; exact hj
    by_cases h : ∃ e ∈ o, j ∈ e.2
    · exact ih _ hb' hj' h fun e he => hp e (List.mem_cons_of_mem _ he)
    · push Not at h
      rw [put_none env xs o _ hb' hj' h]
      have hje : j ∈ e.2 := by
        obtain ⟨e', he', hj''⟩ := he
        rcases List.mem_cons.1 he' with rfl | he'
        · exact hj''
        · exact absurd hj'' (h e' he')
      rw [put_prior (hb e List.mem_cons_self ⟨j, hje⟩) _ _ _ hj, if_pos hje, hp e List.mem_cons_self hje]

/-- the loop over the indices of one constraint -/
theorem jac_loop (xs : List ℝ) (t : Transf) (W : Finset ℕ) (ind : List ℕ) (hn : ind.Nodup) (g : List ℝ) :
    (ind.foldl (fun g i => if i ∈ W then g.set i (g.getD i 0 + t.logJacobianGrad (xs.getD i 0)) else g) g).length = g.length ∧ ∀ j < g.length,
    (ind.foldl (fun g i => if i ∈ W then g.set i (g.getD i 0 + t.logJacobianGrad (xs.getD i 0)) else g) g).getD j 0 =
      g.getD j 0 + if j ∈ ind ∧ j ∈ W then t.logJacobianGrad (xs.getD j 0) else 0 := by
  induction ind generalizing g with
  | nil => simp
  | cons i ind ih =>
    rw [List.foldl_cons]
    obtain ⟨h1, h2⟩ := ih hn.of_cons (if i ∈ W then g.set i (g.getD i 0 + t.logJacobianGrad (xs.getD i 0)) else g)
    have hl : (if i ∈ W then g.set i (g.getD i 0 + t.logJacobianGrad (xs.getD i 0)) else g).length = g.length := by split_ifs <;> simp
    rw [hl] at h1 h2
    refine ⟨h1, fun j hj => ?_⟩
    rw [h2 j hj]
    by_cases hw : i ∈ W
    · rw [if_pos hw, getD_set_ite hj]
      by_cases hji : j = i
      · subst hji
        rw [if_pos rfl, if_neg (fun h => (List.nodup_cons.1 hn).1 h.1), if_pos ⟨List.mem_cons_self, hw⟩, add_zero]
      · rw [if_neg hji]
        simp only [List.mem_cons, hji, false_or]
    · rw [if_neg hw]
      by_cases hji : j = i
      · subst hji
        rw [if_neg (fun h => hw h.2), if_neg (fun h => hw h.2)]
      · simp only [List.mem_cons, hji, false_or]

/-- the contribution of one constraint to the gradient of parameter `j` -/
noncomputable def jacGrad (env : ParamEnv) (xs : List ℝ) (W : Finset ℕ) (j : ℕ) (e : Con × Finset ℕ) : ℝ :=
  match env.transf e.1 with
  | none => 0
  | some t => if j ∈ e.2 ∧ j ∈ W then t.logJacobianGrad (xs.getD j 0) else 0

theorem addJacobian (env : ParamEnv) (s : PState) (W : Finset ℕ) (g : List ℝ) (e : Con × Finset ℕ) :
    (addJacobianGrads env s W g e).length = g.length ∧ ∀ j < g.length, (addJacobianGrads env s W g e).getD j 0 = g.getD j 0 + jacGrad env s.params W j e := by
  unfold addJacobianGrads jacGrad
  cases h : env.transf e.1 with
  | none => exact ⟨rfl, fun j _ => (add_zero _).symm⟩
  | some t =>
    obtain ⟨h1, h2⟩ := jac_loop s.params t W e.2.sort (e.2.sort_nodup _) g
    refine ⟨h1, fun j hj => ?_⟩
    have := h2 j hj
    simp only [Finset.mem_sort] at this
    exact this

theorem addJacobian_fold (env : ParamEnv) (s : PState) (W : Finset ℕ) (o : IndexOps Con) (g : List ℝ) :
    (o.foldl (addJacobianGrads env s W) g).length = g.length ∧ ∀ j < g.length,
      (o.foldl (addJacobianGrads env s W) g).getD j 0 = g.getD j 0 + (o.map (jacGrad env s.params W j)).sum := by
  induction o generalizing g with
  | nil => exact ⟨rfl, fun j _ => by simp⟩
  | cons e o ih =>
    obtain ⟨h1, h2⟩ := addJacobian env s W g e
    obtain ⟨h3, h4⟩ := ih (addJacobianGrads env s W g e)
    rw [h1] at h3 h4
    refine ⟨h3, fun j hj => ?_⟩
    rw [List.foldl_cons, h4 j hj, h2 j hj, List.map_cons, List.sum_cons, add_assoc]

/-- a term of a sum over parameters, as a function of one of them -/
theorem hasDerivAt_term {xs : List ℝ} {i : ℕ} (hi : i < xs.length) (S : Finset ℕ) (f : ℝ → ℝ) (f' : ℝ) (hf : i ∈ S → HasDerivAt f f' (xs.getD i 0)) (hS : ∀ j ∈ S, j < xs.length) :
    HasDerivAt (fun t => ∑ j ∈ S, f ((xs.set i t).getD j 0)) (if i ∈ S then f' else 0) (xs.getD i 0) := by
  have : HasDerivAt (fun t => ∑ j ∈ S, f ((xs.set i t).getD j 0)) (∑ j ∈ S, if j = i then f' else 0) (xs.getD i 0) := by
    refine HasDerivAt.fun_sum fun j hj => ?_
    by_cases h : j = i
    · subst h
      simp only [getD_set_ite hi, if_true]
      exact hf hj
    · simp only [getD_set_ite (hS j hj), if_neg h]
      exact hasDerivAt_const _ _
  rwa [Finset.sum_ite_eq' S i] at this

theorem hasDerivAt_listSum {α : Type} (l : List α) (f : α → ℝ → ℝ) (f' : α → ℝ) (x : ℝ) (h : ∀ a ∈ l, HasDerivAt (f a) (f' a) x) :
    HasDerivAt (fun t => (l.map fun a => f a t).sum) (l.map f').sum x := by
  induction l with
  | nil => simpa using hasDerivAt_const x (0 : ℝ)
  | cons a l ih =>
    simp only [List.map_cons, List.sum_cons]
    exact (h a List.mem_cons_self).add (ih fun b hb => h b (List.mem_cons_of_mem _ hb))

theorem mem_indicesWithPrior (s : PState) (i : ℕ) : i ∈ s.indicesWithPrior ↔ ∃ e ∈ s.priors, i ∈ e.2 := by
  unfold PState.indicesWithPrior
  have : ∀ (o : IndexOps ℕ) (w : Finset ℕ), i ∈ o.foldl (fun w e => w ∪ e.2) w ↔ i ∈ w ∨ ∃ e ∈ o, i ∈ e.2 := by
    intro o
    induction o with
    | nil => simp
    | cons e o ih =>
      intro w
      rw [List.foldl_cons, ih, Finset.mem_union]
      simp only [List.mem_cons, exists_eq_or_imp]
      tauto
  rw [this]
  simp

theorem foldl_add_map {α : Type} (l : List α) (f : α → ℝ) (c : ℝ) : l.foldl (fun acc e => acc + f e) c = c + (l.map f).sum := by
  induction l generalizing c with
  | nil => simp
  | cons a l ih => rw [List.foldl_cons, ih, List.map_cons, List.sum_cons, add_assoc]

/-- the sum of a function that is zero but on one element -/
theorem sum_zero_list {α : Type} (l : List α) (f : α → ℝ) (h : ∀ a ∈ l, f a = 0) : (l.map f).sum = 0 := by
  refine List.sum_eq_zero fun x hx => ?_
  obtain ⟨a, ha, rfl⟩ := List.mem_map.1 hx
  exact h a ha

theorem sum_one_list {κ : Type} [DecidableEq κ] {o : IndexOps κ} (hk : (o.map Prod.fst).Nodup) (f : κ × Finset ℕ → ℝ) {e : κ × Finset ℕ} (he : e ∈ o) (h : ∀ a ∈ o, a.1 ≠ e.1 → f a = 0) :
    (o.map f).sum = f e := by
  induction o with
  | nil => simp at he
  | cons a o ih =>
    rw [List.map_cons, List.nodup_cons] at hk
    rw [List.map_cons, List.sum_cons]
    rcases List.mem_cons.1 he with rfl | he'
    · rw [sum_zero_list o f fun b hb => h b (List.mem_cons_of_mem _ hb) fun hb' => hk.1 (List.mem_map.2 ⟨b, hb, hb'⟩), add_zero]
    · rw [h a List.mem_cons_self fun ha => hk.1 (List.mem_map.2 ⟨e, he', ha.symm⟩), zero_add]
      exact ih hk.2 he' fun b hb => h b (List.mem_cons_of_mem _ hb)

/-- the derivative of the log prior in a parameter -/
theorem hasDerivAt_logPrior {env : ParamEnv} {s : PState} {n : ℕ} (h : s.OK n) (hr : s.Regular env) {i : ℕ} (hi : i < n) (hs : s.priors.size ≠ 0) :
    HasDerivAt (fun t => (s.setParam i t).logPrior env)
      ((s.priors.map fun e => if i ∈ e.2 then (env.prior e.1).slope (s.params.getD i 0) else 0).sum + (s.constraints.map (jacGrad env s.params s.indicesWithPrior i)).sum)
      (s.params.getD i 0) := by
  have hi' : i < s.params.length := by rw [h.params]; exact hi
  unfold PState.logPrior
  have e0 : ∀ t, (s.setParam i t).priors.size = 0 ↔ False := fun t => by simpa [PState.setParam] using hs
  simp only [e0, if_false, foldl_add_map, zero_add]
  refine HasDerivAt.add ?_ ?_
  · refine hasDerivAt_listSum s.priors (fun e t => ((env.prior e.1).lnpdf (.array (takeIx (s.setParam i t).params e.2))).sum) _ _ fun e he => ?_
    have hS : ∀ j ∈ e.2, j < s.params.length := fun j hj => by rw [h.params]; exact h.priors.range j e.1 ⟨e, he, rfl, hj⟩
    rcases Finset.eq_empty_or_nonempty e.2 with h0 | ⟨j, hj⟩
    · simp only [h0, Finset.notMem_empty, if_false, takeIx, Finset.sort_empty, List.map_nil]
      exact hasDerivAt_const _ _
    · have hB := (hr.priors j e.1 ⟨e, he, rfl, hj⟩).1
      have e1 : ∀ t, ((env.prior e.1).lnpdf (.array (takeIx (s.setParam i t).params e.2))).sum = ∑ j ∈ e.2, (env.prior e.1).logDensity ((s.params.set i t).getD j 0) := by
        intro t
        rw [hB.2.1]
        unfold PyNum.sum takeIx
        rw [List.map_map, ← sort_map_sum]
        rfl
      simp only [e1]
      exact hasDerivAt_term hi' e.2 _ _ (fun hi2 => behaves_slope hB (hr.priors i e.1 ⟨e, he, rfl, hi2⟩).2) hS
  · refine hasDerivAt_listSum s.constraints (fun e t => jacobianTerm env (s.setParam i t) e) _ _ fun e he => ?_
    have hS : ∀ j ∈ e.2, j < s.params.length := fun j hj => by rw [h.params]; exact h.constraints.range j e.1 ⟨e, he, rfl, hj⟩
    unfold jacobianTerm jacGrad
    cases ht : env.transf e.1 with
    | none => exact hasDerivAt_const _ _
    | some t =>
      simp only
      have e1 : ∀ u, ((e.2.sort.filter fun x => decide (x ∈ (s.setParam i u).indicesWithPrior)).map fun j => t.logJacobian ((s.setParam i u).params.getD j 0)).sum =
          ∑ j ∈ e.2.filter (· ∈ s.indicesWithPrior), t.logJacobian ((s.params.set i u).getD j 0) := by
        intro u
        rw [← List.sum_toFinset _ ((e.2.sort_nodup _).filter _), List.toFinset_filter, Finset.sort_toFinset]
        refine Finset.sum_congr ?_ fun _ _ => rfl
        ext j
        simp only [Finset.mem_filter, decide_eq_true_eq]
        rfl
      simp only [e1]
      have := hasDerivAt_term hi' (e.2.filter (· ∈ s.indicesWithPrior)) t.logJacobian (t.logJacobianGrad (s.params.getD i 0))
        (fun hi2 => hr.transf i e.1 ⟨e, he, rfl, (Finset.mem_filter.1 hi2).1⟩ t ht) fun j hj => hS j (Finset.mem_filter.1 hj).1
      simpa only [Finset.mem_filter] using this

/-- the entries of the log prior gradients -/
theorem logPriorGradients_getD {env : ParamEnv} {s : PState} {n : ℕ} (h : s.OK n) (hr : s.Regular env) {i : ℕ} (hi : i < n) (hs : s.priors.size ≠ 0) :
    (s.logPriorGradients env).length = n ∧ (s.logPriorGradients env).getD i 0 =
      (s.priors.map fun e => if i ∈ e.2 then (env.prior e.1).slope (s.params.getD i 0) else 0).sum +
        (s.constraints.map (jacGrad env s.params ((s.priors.getLast?.map Prod.snd).getD ∅) i)).sum := by
  unfold PState.logPriorGradients
  rw [if_neg hs]
  simp only
  have hz : (s.params.map fun _ => (0 : ℝ)).length = n := by rw [List.length_map, h.params]
  obtain ⟨h1, h2⟩ := addJacobian_fold env s ((s.priors.getLast?.map Prod.snd).getD ∅) s.constraints
    (s.priors.foldl (fun g e => npPut g e.2.sort ((env.prior e.1).lnpdfGrad (.array (takeIx s.params e.2))).values) (s.params.map fun _ => 0))
  rw [put_fold_length, hz] at h1 h2
  refine ⟨h1, ?_⟩
  rw [h2 i hi]
  congr 1
  have hb : ∀ e ∈ s.priors, e.2.Nonempty → (env.prior e.1).Behaves := fun e he ⟨j, hj⟩ => (hr.priors j e.1 ⟨e, he, rfl, hj⟩).1
  by_cases hex : ∃ e ∈ s.priors, i ∈ e.2
  · obtain ⟨e, he, hie⟩ := hex
    have hu : ∀ a ∈ s.priors, i ∈ a.2 → a.1 = e.1 := fun a ha hia => h.priors.unique i _ _ ⟨a, ha, rfl, hia⟩ ⟨e, he, rfl, hie⟩
    rw [put_some env s.params s.priors _ hb (by rw [hz]; exact hi) e.1 ⟨e, he, hie⟩ hu,
      sum_one_list h.priors.keys (fun e => if i ∈ e.2 then (env.prior e.1).slope (s.params.getD i 0) else 0) he
        fun a ha hne => if_neg fun hia => hne (hu a ha hia), if_pos hie]
  · push Not at hex
    rw [put_none env s.params s.priors _ hb (by rw [hz]; exact hi) hex, sum_zero_list s.priors _ fun e he => if_neg (hex e he)]
    rw [List.getD_eq_getElem _ _ (by rw [hz]; exact hi), List.getElem_map]

/-- what the gradient of the objective lacks in parameter `i`: the Jacobian term of its constraint when `i` has a prior that is not the last in the dictionary -/
noncomputable def missingTerm (env : ParamEnv) (s : PState) (i : ℕ) : ℝ :=
  (s.constraints.map (jacGrad env s.params s.indicesWithPrior i)).sum - (s.constraints.map (jacGrad env s.params ((s.priors.getLast?.map Prod.snd).getD ∅) i)).sum

theorem size_zero {o : IndexOps ℕ} (h : o.size = 0) : ∀ e ∈ o, e.2 = ∅ := by
  intro e he
  have := List.sum_eq_zero_iff.1 h e.2.card (List.mem_map.2 ⟨e, he, rfl⟩)
  exact Finset.card_eq_zero.1 this

theorem objective_deriv {env : ParamEnv} {s : PState} {n : ℕ} (h : s.OK n) (hr : s.Regular env) {i : ℕ} (hi : i < n) :
    HasDerivAt (fun t => (s.setParam i t).objective env) ((s.objectiveGradients env).getD i 0 - missingTerm env s i) (s.params.getD i 0) := by
  have hi' : i < s.params.length := by rw [h.params]; exact hi
  have hL := hr.gradient i hi'
  unfold PState.objective PState.objectiveGradients
  have hzip : ∀ {a b : List ℝ}, a.length = n → b.length = n → ((a.zip b).map fun p : ℝ × ℝ => -(p.1 + p.2)).getD i 0 = -(a.getD i 0 + b.getD i 0) := by
    intro a b ha hb
    rw [List.getD_eq_getElem _ _ (by simp [ha, hb]; omega), List.getElem_map, List.getElem_zip, List.getD_eq_getElem _ _ (by omega), List.getD_eq_getElem _ _ (by omega)]
  have hg : (env.gradient s.params).length = n := by rw [hr.size, h.params]
  by_cases hs : s.priors.size = 0
  · have e1 : ∀ t, (s.setParam i t).logPrior env = 0 := fun t => by unfold PState.logPrior; rw [if_pos]; exact hs
    have e2 : s.logPriorGradients env = s.params.map fun _ => 0 := by unfold PState.logPriorGradients; rw [if_pos hs]
    have hm : missingTerm env s i = 0 := by
      have he := size_zero hs
      have h1 : i ∉ s.indicesWithPrior := by
        rw [mem_indicesWithPrior]
        rintro ⟨e, h1, h2⟩
        rw [he e h1] at h2
        exact absurd h2 (Finset.notMem_empty _)
      have h2 : i ∉ (s.priors.getLast?.map Prod.snd).getD ∅ := by
        cases hl : s.priors.getLast? with
        | none => simp
        | some e => simp [he e (List.mem_of_getLast? hl)]
      unfold missingTerm
      rw [sum_zero_list, sum_zero_list, sub_zero]
      · intro e _; unfold jacGrad; split
        · rfl
        · exact if_neg fun h => h2 h.2
      · intro e _; unfold jacGrad; split
        · rfl
        · exact if_neg fun h => h1 h.2
    rw [e2, hm, sub_zero, hzip hg (by rw [List.length_map, h.params])]
    have : (s.params.map fun _ => (0 : ℝ)).getD i 0 = 0 := by rw [List.getD_eq_getElem _ _ (by simpa using hi'), List.getElem_map]
    rw [this]
    simp only [e1]
    exact (hL.add (hasDerivAt_const _ _)).neg
  · obtain ⟨h1, h2⟩ := logPriorGradients_getD h hr hi hs
    rw [hzip hg h1, h2]
    refine ((hL.add (hasDerivAt_logPrior h hr hi hs)).neg).congr_deriv ?_
    unfold missingTerm
    ring

theorem mem_last_iff {s : PState} {n : ℕ} (h : s.OK n) {i : ℕ} {p : ℕ} (hp : p ∈ s.priorsAt i) :
    i ∈ (s.priors.getLast?.map Prod.snd).getD ∅ ↔ ∃ e, s.priors.getLast? = some e ∧ p = e.1 := by
  obtain ⟨a, ha, rfl, hia⟩ := hp
  cases hl : s.priors.getLast? with
  | none => simp
  | some e =>
    have he := List.mem_of_getLast? hl
    simp only [Option.map_some, Option.getD_some, Option.some.injEq, exists_eq_left']
    constructor
    · intro hie
      exact h.priors.unique i _ _ ⟨a, ha, rfl, hia⟩ ⟨e, he, rfl, hie⟩
    · intro hk
      have : a = e := List.inj_on_of_nodup_map h.priors.keys ha he hk
      rw [← this]
      exact hia

theorem missingTerm_eq {env : ParamEnv} {s : PState} {n : ℕ} (h : s.OK n) (i : ℕ) :
    (∀ t, s.Lacking env i t → missingTerm env s i = t.logJacobianGrad (s.params.getD i 0)) ∧ ((∀ t, ¬ s.Lacking env i t) → missingTerm env s i = 0) := by
  have hsum : ∀ (W : Finset ℕ) (e : Con × Finset ℕ) (t : Transf), e ∈ s.constraints → i ∈ e.2 → env.transf e.1 = some t →
      (s.constraints.map (jacGrad env s.params W i)).sum = if i ∈ W then t.logJacobianGrad (s.params.getD i 0) else 0 := by
    intro W e t he hie ht
    rw [sum_one_list h.constraints.keys _ he fun a ha hne => ?_]
    · unfold jacGrad
      rw [ht]
      simp [hie]
    · unfold jacGrad
      split
      · rfl
      · exact if_neg fun hia => hne (h.constraints.unique i _ _ ⟨a, ha, rfl, hia.1⟩ ⟨e, he, rfl, hie⟩)
  constructor
  · rintro t ⟨⟨p, hp, hl⟩, c, ⟨e, he, rfl, hie⟩, ht⟩
    unfold missingTerm
    rw [hsum _ e t he hie ht, hsum _ e t he hie ht, if_pos, if_neg, sub_zero]
    · rw [mem_last_iff h hp]
      rintro ⟨e', h1, h2⟩
      exact hl e' h1 h2
    · rw [mem_indicesWithPrior]
      obtain ⟨a, ha, -, hia⟩ := hp
      exact ⟨a, ha, hia⟩
  · intro hn
    unfold missingTerm
    by_cases hc : ∃ e ∈ s.constraints, i ∈ e.2 ∧ ∃ t, env.transf e.1 = some t
    · obtain ⟨e, he, hie, t, ht⟩ := hc
      rw [hsum _ e t he hie ht, hsum _ e t he hie ht]
      by_cases hp : ∃ p, p ∈ s.priorsAt i
      · obtain ⟨p, hp⟩ := hp
        have h1 : i ∈ s.indicesWithPrior := by
          rw [mem_indicesWithPrior]
          obtain ⟨a, ha, -, hia⟩ := hp
          exact ⟨a, ha, hia⟩
        have h2 : i ∈ (s.priors.getLast?.map Prod.snd).getD ∅ := by
          rw [mem_last_iff h hp]
          by_contra hcon
          push Not at hcon
          exact hn t ⟨⟨p, hp, hcon⟩, e.1, ⟨e, he, rfl, hie⟩, ht⟩
        rw [if_pos h1, if_pos h2, sub_self]
      · have h1 : i ∉ s.indicesWithPrior := by
          rw [mem_indicesWithPrior]
          rintro ⟨a, ha, hia⟩
          exact hp ⟨a.1, a, ha, rfl, hia⟩
        have h2 : i ∉ (s.priors.getLast?.map Prod.snd).getD ∅ := by
          cases hl : s.priors.getLast? with
          | none => simp
          | some a =>
            simp only [Option.map_some, Option.getD_some]
            exact fun hia => hp ⟨a.1, a, List.mem_of_getLast? hl, rfl, hia⟩
        rw [if_neg h1, if_neg h2, sub_self]
    · push Not at hc
      rw [sum_zero_list, sum_zero_list, sub_zero]
      all_goals
        intro e he
        unfold jacGrad
        split
        · rfl
        · rename_i t ht
          exact if_neg fun hie => hc e he hie.1 t ht

/-- C55 (partial): after any history of calls about the parameters, at values where the priors, transformations and the likelihood have the gradients they claim,
the gradient of the objective is its derivative in every parameter but those that have a prior which is not the last of the dictionary of priors, and a
transformation as constraint. Missing for the full claim, and false: those parameters (`C55_lacking`, `C55_violated`). -/
theorem C55_gradient_partial (env : ParamEnv) (xs : List ℝ) (ops : List POp) (ho : ∀ op ∈ ops, op.InRange xs.length) (hr : (runOps env (PState.fresh xs) ops).Regular env)
    (i : ℕ) (hi : i < xs.length) (hl : ∀ t, ¬ (runOps env (PState.fresh xs) ops).Lacking env i t) : (runOps env (PState.fresh xs) ops).EntryCorrect env i := by
  have h := runOps_OK env (fresh_OK xs) ho
  have := objective_deriv h hr hi
  rwa [(missingTerm_eq h i).2 hl, sub_zero] at this

/-- C55: with at most one prior object in use the gradient of the objective is right in every parameter. -/
theorem C55_one_prior (env : ParamEnv) (xs : List ℝ) (ops : List POp) (ho : ∀ op ∈ ops, op.InRange xs.length) (hr : (runOps env (PState.fresh xs) ops).Regular env)
    (h1 : (runOps env (PState.fresh xs) ops).priors.length ≤ 1) (i : ℕ) (hi : i < xs.length) : (runOps env (PState.fresh xs) ops).EntryCorrect env i := by
  refine C55_gradient_partial env xs ops ho hr i hi ?_
  rintro t ⟨⟨p, ⟨e, he, rfl, -⟩, hl⟩, -⟩
  generalize (runOps env (PState.fresh xs) ops).priors = o at h1 he hl
  match o, h1, he with
  | [a], _, he =>
    rw [List.mem_singleton] at he
    exact hl a rfl (by rw [he])

/-- C55: in the remaining parameters the gradient lacks exactly the derivative of the Jacobian term. -/
theorem C55_lacking (env : ParamEnv) (xs : List ℝ) (ops : List POp) (ho : ∀ op ∈ ops, op.InRange xs.length) (hr : (runOps env (PState.fresh xs) ops).Regular env)
    (i : ℕ) (hi : i < xs.length) (t : Transf) (hl : (runOps env (PState.fresh xs) ops).Lacking env i t) :
    HasDerivAt (fun u => ((runOps env (PState.fresh xs) ops).setParam i u).objective env)
      (((runOps env (PState.fresh xs) ops).objectiveGradients env).getD i 0 - t.logJacobianGrad ((runOps env (PState.fresh xs) ops).params.getD i 0))
      ((runOps env (PState.fresh xs) ops).params.getD i 0) := by
  have h := runOps_OK env (fresh_OK xs) ho
  have := objective_deriv h hr hi
  rwa [(missingTerm_eq h i).1 t hl] at this

theorem logexp_jacobian {x : ℝ} (hx : 0 < x) : HasDerivAt logexpTransf.logJacobian (logexpTransf.logJacobianGrad x) x := by
  have h1 : Real.exp x - 1 ≠ 0 := by have := Real.one_lt_exp_iff.2 hx; linarith
  have := (((Real.hasDerivAt_exp x).sub_const 1).log h1).sub (hasDerivAt_id x)
  refine this.congr_deriv ?_
  show Real.exp x / (Real.exp x - 1) - 1 = 1 / (Real.exp x - 1)
  field_simp
  ring

theorem gamma_behaves (a b : ℝ) : (gammaPrior a b).Behaves := ⟨(C53_gamma a b).2.1, (C53_gamma a b).2.2.1, .inl (C53_gamma a b).2.2.2⟩

/-- two parameters, with a Gamma prior each (two prior objects) -/
noncomputable def twoGammas : ParamEnv where
  prior := fun k => gammaPrior (k + 1) 1
  other := fun _ => none
  negative := logexpTransf
  logLikelihood := fun xs => xs.getD 0 0 - 2 * xs.getD 1 0
  gradient := fun _ => [1, -2]
  notify := fun _ => none
  seen := fun _ _ => []

theorem twoGammas_state : runOps twoGammas (PState.fresh [2, 3]) [.setPrior {0} 0, .setPrior {1} 1] = ⟨[2, 3], [(0, {0}), (1, {1})], [(.logexp, {0, 1})]⟩ := by
  have e1 : setPrior twoGammas (PState.fresh [2, 3]) {0} 0 = (none, ⟨[2, 3], [(0, {0})], [(.logexp, {0})]⟩) := by
    simp [setPrior, PState.fresh, twoGammas, gammaPrior, constrainDomain, constrain, ParamEnv.transf, logexpTransf, IndexOps.removeAll, IndexOps.add, updateAt]
  have e2 : setPrior twoGammas ⟨[2, 3], [(0, {0})], [(.logexp, {0})]⟩ {1} 1 = (none, ⟨[2, 3], [(0, {0}), (1, {1})], [(.logexp, {0, 1})]⟩) := by
    have h1 : (IndexOps.removeAll [(0, {0})] {1} : IndexOps ℕ).add 1 {1} = [(0, {0}), (1, {1})] := by decide
    have h2 : (IndexOps.removeAll [(.logexp, {0})] {1} : IndexOps Con).add .logexp {1} = [(.logexp, {0, 1})] := by decide
    simp [setPrior, twoGammas, gammaPrior, constrainDomain, constrain, ParamEnv.transf, logexpTransf, updateAt, h1, h2]
  simp only [runOps, List.foldl_cons, List.foldl_nil, POp.run, e1, e2]

theorem twoGammas_regular : (runOps twoGammas (PState.fresh [2, 3]) [.setPrior {0} 0, .setPrior {1} 1]).Regular twoGammas := by
  rw [twoGammas_state]
  have hx : ∀ i ∈ ({0, 1} : Finset ℕ), (0 : ℝ) < ([2, 3] : List ℝ).getD i 0 := by
    intro i hi
    simp only [Finset.mem_insert, Finset.mem_singleton] at hi
    rcases hi with rfl | rfl <;> simp
  refine ⟨?_, ?_, rfl, ?_⟩
  · rintro i p ⟨e, he, rfl, hi⟩
    refine ⟨gamma_behaves _ _, ?_⟩
    refine hx i ?_
    simp only [List.mem_cons, List.not_mem_nil, or_false] at he
    rcases he with rfl | rfl <;> simp_all
  · rintro i c ⟨e, he, rfl, hi⟩ t ht
    rw [List.mem_singleton] at he
    subst he
    have : t = logexpTransf := (Option.some.inj ht).symm
    subst this
    exact logexp_jacobian (hx i hi)
  · intro i hi
    have : i = 0 ∨ i = 1 := by simp at hi; omega
    rcases this with rfl | rfl
    · exact ((hasDerivAt_id (2 : ℝ)).sub_const (2 * 3))
    · have := ((hasDerivAt_id (3 : ℝ)).const_mul 2).const_sub 2
      refine this.congr_deriv ?_
      show -(2 * 1 : ℝ) = -2
      norm_num

/-- C55 is false: with Gamma priors on two parameters, the gradient of the objective in the first parameter is not its derivative. -/
theorem C55_violated : ∃ (env : ParamEnv) (xs : List ℝ) (ops : List POp) (i : ℕ), (∀ op ∈ ops, op.InRange xs.length) ∧ (runOps env (PState.fresh xs) ops).Regular env ∧
    i < xs.length ∧ ¬ (runOps env (PState.fresh xs) ops).EntryCorrect env i := by
  refine ⟨twoGammas, [2, 3], [.setPrior {0} 0, .setPrior {1} 1], 0, by simp [POp.InRange], twoGammas_regular, by simp, fun h => ?_⟩
  have hl : (runOps twoGammas (PState.fresh [2, 3]) [.setPrior {0} 0, .setPrior {1} 1]).Lacking twoGammas 0 logexpTransf := by
    rw [twoGammas_state]
    refine ⟨⟨0, ⟨(0, {0}), by simp, rfl, by simp⟩, fun e he => ?_⟩, .logexp, ⟨(.logexp, {0, 1}), by simp, rfl, by simp⟩, rfl⟩
    have : e = (1, {1}) := by simpa using he.symm
    rw [this]
    simp
  have h2 := C55_lacking twoGammas [2, 3] _ (by simp [POp.InRange]) twoGammas_regular 0 (by simp) logexpTransf hl
  have := HasDerivAt.unique h h2
  have hz : logexpTransf.logJacobianGrad ((runOps twoGammas (PState.fresh [2, 3]) [.setPrior {0} 0, .setPrior {1} 1]).params.getD 0 0) ≠ 0 := by
    rw [twoGammas_state]
    show 1 / (Real.exp 2 - 1) ≠ 0
    have := Real.one_lt_exp_iff.2 (show (0 : ℝ) < 2 by norm_num)
    exact one_div_ne_zero (by linarith)
  apply hz
  linarith

/-- in the second parameter it is -/
example : (runOps twoGammas (PState.fresh [2, 3]) [.setPrior {0} 0, .setPrior {1} 1]).EntryCorrect twoGammas 1 := by
  refine C55_gradient_partial twoGammas [2, 3] _ (by simp [POp.InRange]) twoGammas_regular 1 (by simp) ?_
  rw [twoGammas_state]
  rintro t ⟨⟨p, ⟨e, he, rfl, hi⟩, hl⟩, -⟩
  have := hl (1, {1}) (by simp)
  simp only [List.mem_cons, List.not_mem_nil, or_false] at he
  rcases he with rfl | rfl
  · simp at hi
  · exact this rfl

/-- C56 on this history: both parameters have their own prior and the positive constraint; unsetting the first leaves the second; a new prior for both replaces it -/
example : ∃ s, s = runOps twoGammas (PState.fresh [2, 3]) [.setPrior {0} 0, .setPrior {1} 1] ∧ s.priorsAt 0 = {0} ∧ s.priorsAt 1 = {1} ∧ s.constraintsAt 0 = {.logexp} ∧
    (unsetPrior s {0}).priorsAt 0 = ∅ ∧ (unsetPrior s {0}).priorsAt 1 = {1} ∧ (setPrior twoGammas s {0, 1} 7).2.priorsAt 1 = {7} ∧ (setPrior twoGammas s {0, 1} 7).1 = none := by
  have h1 : (⟨[2, 3], [(0, {0}), (1, {1})], [(.logexp, {0, 1})]⟩ : PState).priorsAt 1 = {1} := by
    ext q
    simp [PState.priorsAt, eq_comm]
  refine ⟨_, rfl, ?_⟩
  rw [twoGammas_state]
  refine ⟨?_, h1, ?_, (C56_unset _ {0} 0).1 (by simp), ?_, (C56_attached _ _ _ 7 1).1 (by simp), ?_⟩
  · ext q
    simp [PState.priorsAt, eq_comm]
  · ext q
    simp [PState.constraintsAt, eq_comm]
  · rw [(C56_unset _ {0} 1).2.1 (by simp), h1]
  · exact ((C56_raises_partial twoGammas _ {0, 1} 7).2.2.1 rfl).2 ⟨rfl, by simp [twoGammas]⟩

end Verif
