import Verif.Spec.Parameterization
import Verif.Props.Priors
import Mathlib.Analysis.Calculus.Deriv.Add
import Mathlib.Data.List.GetD
import Mathlib.Algebra.BigOperators.Group.Finset.Basic

/-! C55, C56: priors and constraints attached to parameters, and the gradient of the objective. -/

namespace Verif

section ops
variable {κ : Type} [DecidableEq κ]

/-- a property is attached to an index -/
def Attached (o : IndexOps κ) (k : κ) (i : ℕ) : Prop := ∃ e ∈ o, e.1 = k ∧ i ∈ e.2

/-- what always holds of such a dictionary here: keys are distinct and an index has at most one property -/
structure OpsOK (o : IndexOps κ) (n : ℕ) : Prop where
  keys : (o.map Prod.fst).Nodup
  unique : ∀ i k k', Attached o k i → Attached o k' i → k = k'
  range : ∀ i k, Attached o k i → i < n

theorem attached_add (o : IndexOps κ) (k : κ) (ix : Finset ℕ) (k' : κ) (i : ℕ) : Attached (o.add k ix) k' i ↔ Attached o k' i ∨ (k' = k ∧ i ∈ ix) := by
  unfold IndexOps.add Attached
  split_ifs with h
  · constructor
    · rintro ⟨e, he, rfl, hi⟩
      obtain ⟨a, ha, rfl⟩ := List.mem_map.1 he
      by_cases hk : a.1 = k
      · rw [if_pos hk] at hi ⊢
        rcases Finset.mem_union.1 hi with hi | hi
        · exact .inl ⟨a, ha, rfl, hi⟩
        · exact .inr ⟨hk, hi⟩
      · rw [if_neg hk] at hi ⊢
        exact .inl ⟨a, ha, rfl, hi⟩
    · rintro (⟨e, he, rfl, hi⟩ | ⟨rfl, hi⟩)
      · refine ⟨_, List.mem_map.2 ⟨e, he, rfl⟩, ?_, ?_⟩
        · split_ifs <;> rfl
        · split_ifs
          · exact Finset.mem_union_left _ hi
          · exact hi
      · obtain ⟨e, he, h1⟩ := List.mem_map.1 h
        refine ⟨_, List.mem_map.2 ⟨e, he, rfl⟩, ?_, ?_⟩
        · rw [if_pos h1]; exact h1
        · rw [if_pos h1]; exact Finset.mem_union_right _ hi
  · constructor
    · rintro ⟨e, he, rfl, hi⟩
      rcases List.mem_append.1 he with he | he
      · exact .inl ⟨e, he, rfl, hi⟩
      · rw [List.mem_singleton.1 he] at hi ⊢
        exact .inr ⟨rfl, hi⟩
    · rintro (⟨e, he, rfl, hi⟩ | ⟨rfl, hi⟩)
      · exact ⟨e, List.mem_append_left _ he, rfl, hi⟩
      · exact ⟨(k', ix), List.mem_append_right _ (List.mem_singleton.2 rfl), rfl, hi⟩

theorem attached_remove (o : IndexOps κ) (k : κ) (ix : Finset ℕ) (k' : κ) (i : ℕ) : Attached (o.remove k ix) k' i ↔ Attached o k' i ∧ ¬ (k' = k ∧ i ∈ ix) := by
  unfold IndexOps.remove Attached
  constructor
  · rintro ⟨e, he, rfl, hi⟩
    obtain ⟨a, ha, rfl⟩ := List.mem_map.1 (List.mem_filter.1 he).1
    by_cases hk : a.1 = k
    · rw [if_pos hk] at hi ⊢
      rw [Finset.mem_sdiff] at hi
      exact ⟨⟨a, ha, rfl, hi.1⟩, fun h => hi.2 h.2⟩
    · rw [if_neg hk] at hi ⊢
      exact ⟨⟨a, ha, rfl, hi⟩, fun h => hk h.1⟩
  · rintro ⟨⟨e, he, rfl, hi⟩, hn⟩
    by_cases hk : e.1 = k
    · have hi' : i ∈ e.2 \ ix := Finset.mem_sdiff.2 ⟨hi, fun h => hn ⟨hk, h⟩⟩
      refine ⟨(e.1, e.2 \ ix), List.mem_filter.2 ⟨List.mem_map.2 ⟨e, he, by rw [if_pos hk]⟩, ?_⟩, rfl, hi'⟩
      simp only [not_and, decide_eq_true_eq]
      exact fun _ h0 => absurd hi' (by rw [h0]; exact Finset.notMem_empty _)
    · refine ⟨e, List.mem_filter.2 ⟨List.mem_map.2 ⟨e, he, by rw [if_neg hk]⟩, ?_⟩, rfl, hi⟩
      simp only [not_and, decide_eq_true_eq]
      exact fun h => absurd h hk

theorem attached_fold (ks : List κ) (o : IndexOps κ) (ix : Finset ℕ) (k' : κ) (i : ℕ) :
    Attached (ks.foldl (fun o k => o.remove k ix) o) k' i ↔ Attached o k' i ∧ ¬ (k' ∈ ks ∧ i ∈ ix) := by
  induction ks generalizing o with
  | nil => simp
  | cons k ks ih =>
    rw [List.foldl_cons, ih, attached_remove, List.mem_cons]
    tauto

theorem attached_removeAll (o : IndexOps κ) (ix : Finset ℕ) (k' : κ) (i : ℕ) : Attached (o.removeAll ix) k' i ↔ Attached o k' i ∧ i ∉ ix := by
  unfold IndexOps.removeAll
  rw [attached_fold]
  constructor
  · rintro ⟨h, hn⟩
    refine ⟨h, fun hi => hn ⟨?_, hi⟩⟩
    obtain ⟨e, he, h1, -⟩ := h
    exact List.mem_map.2 ⟨e, he, h1⟩
  · rintro ⟨h, hn⟩
    exact ⟨h, fun h' => hn h'.2⟩

theorem keys_remove (o : IndexOps κ) (k : κ) (ix : Finset ℕ) (h : (o.map Prod.fst).Nodup) : ((o.remove k ix).map Prod.fst).Nodup := by
  unfold IndexOps.remove
  refine List.Nodup.sublist (List.filter_sublist.map _) ?_
  rw [List.map_map]
  have e : (Prod.fst ∘ fun e : κ × Finset ℕ => if e.1 = k then (e.1, e.2 \ ix) else e) = Prod.fst := by
    funext e
    simp only [Function.comp]
    split_ifs <;> rfl
  rw [e]
  exact h

theorem keys_removeAll (o : IndexOps κ) (ix : Finset ℕ) (h : (o.map Prod.fst).Nodup) : ((o.removeAll ix).map Prod.fst).Nodup := by
  unfold IndexOps.removeAll
  generalize o.map Prod.fst = ks
  induction ks generalizing o with
  | nil => exact h
  | cons k ks ih => exact ih _ (keys_remove o k ix h)

theorem keys_add (o : IndexOps κ) (k : κ) (ix : Finset ℕ) (h : (o.map Prod.fst).Nodup) : ((o.add k ix).map Prod.fst).Nodup := by
  unfold IndexOps.add
  split_ifs with hk
  · rw [List.map_map]
    have e : (Prod.fst ∘ fun e : κ × Finset ℕ => if e.1 = k then (e.1, e.2 ∪ ix) else e) = Prod.fst := by
      funext e
      simp only [Function.comp]
      split_ifs <;> rfl
    rw [e]
    exact h
  · rw [List.map_append, List.nodup_append]
    refine ⟨h, List.nodup_singleton _, ?_⟩
    rintro a ha b hb rfl
    rw [List.map_singleton, List.mem_singleton] at hb
    rw [hb] at ha
    exact hk ha

theorem opsOK_removeAll {o : IndexOps κ} {n : ℕ} (h : OpsOK o n) (ix : Finset ℕ) : OpsOK (o.removeAll ix) n where
  keys := keys_removeAll o ix h.keys
  unique := fun i k k' h1 h2 => h.unique i k k' ((attached_removeAll ..).1 h1).1 ((attached_removeAll ..).1 h2).1
  range := fun i k h1 => h.range i k ((attached_removeAll ..).1 h1).1

theorem attached_replace (o : IndexOps κ) (k : κ) (ix : Finset ℕ) (k' : κ) (i : ℕ) :
    Attached ((o.removeAll ix).add k ix) k' i ↔ (i ∈ ix ∧ k' = k) ∨ (i ∉ ix ∧ Attached o k' i) := by
  rw [attached_add, attached_removeAll]
  by_cases hi : i ∈ ix <;> simp [hi]

theorem opsOK_replace {o : IndexOps κ} {n : ℕ} (h : OpsOK o n) (k : κ) {ix : Finset ℕ} (hix : ∀ i ∈ ix, i < n) : OpsOK ((o.removeAll ix).add k ix) n where
  keys := keys_add _ k ix (keys_removeAll o ix h.keys)
  unique := fun i a b h1 h2 => by
    rw [attached_replace] at h1 h2
    rcases h1 with ⟨hi, rfl⟩ | ⟨hi, h1⟩
    · rcases h2 with ⟨-, rfl⟩ | ⟨hn, -⟩
      · rfl
      · exact absurd hi hn
    · rcases h2 with ⟨hn, -⟩ | ⟨-, h2⟩
      · exact absurd hn hi
      · exact h.unique i a b h1 h2
  range := fun i a h1 => by
    rw [attached_replace] at h1
    rcases h1 with ⟨hi, -⟩ | ⟨-, h1⟩
    · exact hix i hi
    · exact h.range i a h1

end ops

theorem updateAt_length (xs : List ℝ) (ix : Finset ℕ) (f : ℝ → ℝ) : (updateAt xs ix f).length = xs.length := List.length_mapIdx

theorem updateAt_getD (xs : List ℝ) (ix : Finset ℕ) (f : ℝ → ℝ) {i : ℕ} (hi : i < xs.length) :
    (updateAt xs ix f).getD i 0 = if i ∈ ix then f (xs.getD i 0) else xs.getD i 0 := by
  rw [List.getD_eq_getElem _ _ (by rw [updateAt_length]; exact hi), List.getD_eq_getElem _ _ hi]
  unfold updateAt
  rw [List.getElem_mapIdx]

/-- the shape of the state -/
structure PState.OK (s : PState) (n : ℕ) : Prop where
  params : s.params.length = n
  priors : OpsOK s.priors n
  constraints : OpsOK s.constraints n

theorem constrain_state (env : ParamEnv) (s : PState) (ix : Finset ℕ) (c : Con) :
    ∃ xs, (constrain env s ix c).2.params = xs ∧ xs.length = s.params.length ∧ (constrain env s ix c).2.priors = s.priors ∧
      ((constrain env s ix c).2.constraints = (s.constraints.removeAll ix).add c ix ∨ (constrain env s ix c).2.constraints = s.constraints) := by
  unfold constrain
  split
  · exact ⟨_, rfl, rfl, rfl, .inl rfl⟩
  · exact ⟨_, rfl, updateAt_length .., rfl, .inl rfl⟩
  · exact ⟨_, rfl, rfl, rfl, .inr rfl⟩

theorem constrain_OK (env : ParamEnv) {s : PState} {n : ℕ} (h : s.OK n) {ix : Finset ℕ} (hix : ∀ i ∈ ix, i < n) (c : Con) : (constrain env s ix c).2.OK n := by
  obtain ⟨xs, h1, h2, h3, h4⟩ := constrain_state env s ix c
  refine ⟨by rw [h1, h2, h.params], by rw [h3]; exact h.priors, ?_⟩
  rcases h4 with h4 | h4 <;> rw [h4]
  · exact opsOK_replace h.constraints c hix
  · exact h.constraints

theorem constrainDomain_cases (env : ParamEnv) (s : PState) (ix : Finset ℕ) (d : Option String) :
    (constrainDomain env s ix d).2 = s ∨ ∃ c, constrainDomain env s ix d = constrain env s ix c := by
  unfold constrainDomain
  split
  · exact .inl rfl
  · exact .inr ⟨_, rfl⟩
  · exact .inr ⟨_, rfl⟩
  · exact .inl rfl

theorem setPrior_state (env : ParamEnv) (s : PState) (ix : Finset ℕ) (p : ℕ) :
    (setPrior env s ix p).2 = (constrainDomain env { s with priors := (s.priors.removeAll ix).add p ix } ix (env.prior p).domain).2 := by
  unfold setPrior
  simp only
  split <;> rename_i h <;> rw [h]

theorem setPrior_OK (env : ParamEnv) {s : PState} {n : ℕ} (h : s.OK n) {ix : Finset ℕ} (hix : ∀ i ∈ ix, i < n) (p : ℕ) : (setPrior env s ix p).2.OK n := by
  rw [setPrior_state]
  have h' : PState.OK { s with priors := (s.priors.removeAll ix).add p ix } n := ⟨h.params, opsOK_replace h.priors p hix, h.constraints⟩
  rcases constrainDomain_cases env { s with priors := (s.priors.removeAll ix).add p ix } ix (env.prior p).domain with e | ⟨c, e⟩
  · rw [e]; exact h'
  · rw [e]; exact constrain_OK env h' hix c

theorem POp.run_OK (env : ParamEnv) {s : PState} {n : ℕ} (h : s.OK n) {op : POp} (hop : op.InRange n) : (op.run env s).2.OK n := by
  cases op with
  | setPrior ix p => exact setPrior_OK env h hop p
  | unsetPrior ix => exact ⟨h.params, opsOK_removeAll h.priors ix, h.constraints⟩
  | constrain ix c => exact constrain_OK env h hop c
  | unconstrain ix => exact ⟨h.params, h.priors, opsOK_removeAll h.constraints ix⟩
  | assign i x => exact ⟨by rw [← h.params]; exact List.length_set, h.priors, h.constraints⟩

theorem runOps_OK (env : ParamEnv) {s : PState} {n : ℕ} (h : s.OK n) {ops : List POp} (hop : ∀ op ∈ ops, op.InRange n) : (runOps env s ops).OK n := by
  unfold runOps
  induction ops generalizing s with
  | nil => exact h
  | cons op ops ih => exact ih (POp.run_OK env h (hop op List.mem_cons_self)) fun o ho => hop o (List.mem_cons_of_mem _ ho)

theorem fresh_OK (xs : List ℝ) : (PState.fresh xs).OK xs.length where
  params := rfl
  priors := ⟨List.nodup_nil, fun _ _ _ h => absurd h (by simp [Attached, PState.fresh]), fun _ _ h => absurd h (by simp [Attached, PState.fresh])⟩
  constraints := ⟨List.nodup_nil, fun _ _ _ h => absurd h (by simp [Attached, PState.fresh]), fun _ _ h => absurd h (by simp [Attached, PState.fresh])⟩

theorem setPrior_priors (env : ParamEnv) (s : PState) (ix : Finset ℕ) (p : ℕ) : (setPrior env s ix p).2.priors = (s.priors.removeAll ix).add p ix := by
  rw [setPrior_state]
  rcases constrainDomain_cases env { s with priors := (s.priors.removeAll ix).add p ix } ix (env.prior p).domain with e | ⟨c, e⟩
  · rw [e]
  · rw [e]
    exact (constrain_state env _ ix c).choose_spec.2.2.1

/-- C56: after `set_prior(p)`, whether it raises or not, exactly `p` is attached to the parameters it is about, and the priors of all others are as before.
(So a call that raises does not leave the parameter as it was, unless it already had `p`.) -/
theorem C56_attached (env : ParamEnv) (s : PState) (ix : Finset ℕ) (p : ℕ) (i : ℕ) :
    (i ∈ ix → (setPrior env s ix p).2.priorsAt i = {p}) ∧ (i ∉ ix → (setPrior env s ix p).2.priorsAt i = s.priorsAt i) := by
  have h : ∀ q, q ∈ (setPrior env s ix p).2.priorsAt i ↔ (i ∈ ix ∧ q = p) ∨ (i ∉ ix ∧ q ∈ s.priorsAt i) := by
    intro q
    unfold PState.priorsAt
    rw [setPrior_priors]
    exact attached_replace s.priors p ix q i
  constructor <;> intro hi <;> ext q <;> rw [h] <;> simp [hi]

theorem constrain_ok {env : ParamEnv} {s s' : PState} {ix : Finset ℕ} {c : Con} {t : Transf} (hf : c ≠ .fixed) (ht : env.transf c = some t)
    (h : constrain env s ix c = (none, s')) :
    s' = { s with params := updateAt s.params ix t.init, constraints := (s.constraints.removeAll ix).add c ix } ∧ env.notify s'.params = none := by
  unfold constrain at h
  rw [ht] at h
  cases c <;> first | exact absurd rfl hf | (simp only [Prod.mk.injEq] at h; exact ⟨h.2.symm, by rw [← h.2]; exact h.1⟩)

/-- C56: when `set_prior(p)` returns, the parameters it is about are constrained to the domain of `p`: a prior on the positive numbers leaves exactly the positive
constraint and the absolute values, one on the negative numbers exactly the negative constraint; a prior on the reals changes neither. Nothing else changes. -/
theorem C56_set_prior (env : ParamEnv) (s : PState) (ix : Finset ℕ) (p : ℕ) (s' : PState) (h : setPrior env s ix p = (none, s')) :
    ((env.prior p).domain = some "real" ∧ s'.params = s.params ∧ s'.constraints = s.constraints) ∨
    ∃ c t, ((env.prior p).domain = some "positive" ∧ c = Con.logexp ∨ (env.prior p).domain = some "negative" ∧ c = Con.negativeLogexp) ∧ env.transf c = some t ∧
      s'.params.length = s.params.length ∧
      (∀ i, (i ∈ ix → s'.constraintsAt i = {c}) ∧ (i ∉ ix → s'.constraintsAt i = s.constraintsAt i)) ∧
      ∀ i < s.params.length, s'.params.getD i 0 = if i ∈ ix then t.init (s.params.getD i 0) else s.params.getD i 0 := by
  have key : ∀ (c : Con) (t : Transf) (s1 s2 : PState), c ≠ .fixed → env.transf c = some t → s1.params = s.params → s1.constraints = s.constraints →
      constrain env s1 ix c = (none, s2) → s2.params.length = s.params.length ∧
      (∀ i, (i ∈ ix → s2.constraintsAt i = {c}) ∧ (i ∉ ix → s2.constraintsAt i = s.constraintsAt i)) ∧
      ∀ i < s.params.length, s2.params.getD i 0 = if i ∈ ix then t.init (s.params.getD i 0) else s.params.getD i 0 := by
    intro c t s1 s2 hf ht hp hc hr
    obtain ⟨e, -⟩ := constrain_ok hf ht hr
    subst e
    simp only [hp, hc]
    refine ⟨updateAt_length .., fun i => ?_, fun i hi => updateAt_getD _ _ _ hi⟩
    have hm : ∀ q, q ∈ PState.constraintsAt ⟨updateAt s.params ix t.init, s1.priors, (s.constraints.removeAll ix).add c ix⟩ i ↔
        (i ∈ ix ∧ q = c) ∨ (i ∉ ix ∧ q ∈ s.constraintsAt i) := fun q => attached_replace s.constraints c ix q i
    constructor <;> intro hi <;> ext q <;> rw [hm] <;> simp [hi]
  have hstep : constrainDomain env { s with priors := (s.priors.removeAll ix).add p ix } ix (env.prior p).domain = (none, s') := by
    unfold setPrior at h
    simp only at h
    split at h
    · exact absurd (congrArg Prod.fst h) (by simp)
    · rename_i s1 hs
      have e : s1 = s' := congrArg Prod.snd h
      rw [hs, e]
  generalize (env.prior p).domain = d at hstep ⊢
  unfold constrainDomain at hstep
  split at hstep
  · left
    have := congrArg Prod.snd hstep
    simp only at this
    subst this
    exact ⟨rfl, rfl, rfl⟩
  · right
    exact ⟨.logexp, logexpTransf, .inl ⟨rfl, rfl⟩, rfl, key _ _ { s with priors := (s.priors.removeAll ix).add p ix } _ (by simp) rfl rfl rfl hstep⟩
  · right
    exact ⟨.negativeLogexp, env.negative, .inr ⟨rfl, rfl⟩, rfl, key _ _ { s with priors := (s.priors.removeAll ix).add p ix } _ (by simp) rfl rfl rfl hstep⟩
  · exact absurd (congrArg Prod.fst hstep) (by simp)

/-- C56: `unset_prior` removes the priors of the parameters it is about, and nothing else. -/
theorem C56_unset (s : PState) (ix : Finset ℕ) (i : ℕ) :
    (i ∈ ix → (unsetPrior s ix).priorsAt i = ∅) ∧ (i ∉ ix → (unsetPrior s ix).priorsAt i = s.priorsAt i) ∧ (unsetPrior s ix).constraints = s.constraints ∧
      (unsetPrior s ix).params = s.params := by
  have h : ∀ q, q ∈ (unsetPrior s ix).priorsAt i ↔ q ∈ s.priorsAt i ∧ i ∉ ix := fun q => attached_removeAll s.priors ix q i
  refine ⟨fun hi => ?_, fun hi => ?_, rfl, rfl⟩ <;> ext q <;> rw [h] <;> simp [hi]

/-- C56: `constrain(c)` and `unconstrain()` never touch priors. What is no constraint is refused and nothing happens; otherwise, whether the model accepts the new values or not, exactly
`c` is attached to the parameters the call is about and nothing changes for the others. `fix()` keeps the values. -/
theorem C56_constrain (env : ParamEnv) (s : PState) (ix : Finset ℕ) (c : Con) :
    (c ≠ .fixed → env.transf c = none → constrain env s ix c = (some .valueError, s)) ∧
    (∀ f : ℝ → ℝ, (c = .fixed ∧ f = id ∨ ∃ t, env.transf c = some t ∧ f = t.init) → ∃ s', constrain env s ix c = (env.notify s'.params, s') ∧ s'.priors = s.priors ∧
      s'.params.length = s.params.length ∧ (∀ i < s.params.length, s'.params.getD i 0 = if i ∈ ix then f (s.params.getD i 0) else s.params.getD i 0) ∧
      ∀ i, (i ∈ ix → s'.constraintsAt i = {c}) ∧ (i ∉ ix → s'.constraintsAt i = s.constraintsAt i)) ∧
    (unconstrain s ix).priors = s.priors ∧ (unconstrain s ix).params = s.params ∧
      ∀ i, (i ∈ ix → (unconstrain s ix).constraintsAt i = ∅) ∧ (i ∉ ix → (unconstrain s ix).constraintsAt i = s.constraintsAt i) := by
  have att : ∀ (xs : List ℝ) (i : ℕ), (i ∈ ix → PState.constraintsAt ⟨xs, s.priors, (s.constraints.removeAll ix).add c ix⟩ i = {c}) ∧
      (i ∉ ix → PState.constraintsAt ⟨xs, s.priors, (s.constraints.removeAll ix).add c ix⟩ i = s.constraintsAt i) := fun xs i => by
    have hm : ∀ q, q ∈ PState.constraintsAt ⟨xs, s.priors, (s.constraints.removeAll ix).add c ix⟩ i ↔
        (i ∈ ix ∧ q = c) ∨ (i ∉ ix ∧ q ∈ s.constraintsAt i) := fun q => attached_replace s.constraints c ix q i
    constructor <;> intro hi <;> ext q <;> rw [hm] <;> simp [hi]
  refine ⟨fun hc ht => ?_, fun f hf => ?_, rfl, rfl, fun i => ?_⟩
  · unfold constrain
    rw [ht]
    cases c <;> first | exact absurd rfl hc | rfl
  · rcases hf with ⟨rfl, rfl⟩ | ⟨t, ht, rfl⟩
    · refine ⟨{ s with constraints := (s.constraints.removeAll ix).add .fixed ix }, rfl, rfl, rfl, fun i _ => ?_, att s.params⟩
      split <;> rfl
    · have hc : c ≠ .fixed := fun e => by rw [e] at ht; cases ht
      refine ⟨{ s with params := updateAt s.params ix t.init, constraints := (s.constraints.removeAll ix).add c ix }, ?_, rfl, updateAt_length .., fun i hi => updateAt_getD _ _ _ hi, att _⟩
      unfold constrain
      rw [ht]
      cases c <;> first | exact absurd rfl hc | rfl
  · have h : ∀ q, q ∈ (unconstrain s ix).constraintsAt i ↔ q ∈ s.constraintsAt i ∧ i ∉ ix := fun q => attached_removeAll s.constraints ix q i
    refine ⟨fun hi => ?_, fun hi => ?_⟩ <;> ext q <;> rw [h] <;> simp [hi]

/-- a parameter is fixed, then constrained to be positive, then by an object that is no constraint: it is left positive and with the absolute value -/
example : ∃ (env : ParamEnv) (s₁ s₂ : PState), constrain env (PState.fresh [-2, 3]) {0} .fixed = (none, s₁) ∧ constrain env s₁ {0} .logexp = (none, s₂) ∧
    constrain env s₂ {0} (.other 0) = (some .valueError, s₂) ∧ s₁.params.getD 0 0 = -2 ∧ s₁.constraintsAt 0 = {.fixed} ∧ s₂.params.getD 0 0 = 2 ∧ s₂.params.getD 1 0 = 3 ∧
    s₂.constraintsAt 0 = {.logexp} := by
  let env : ParamEnv := { prior := fun _ => gammaPrior 1 1, other := fun _ => none, negative := logexpTransf, logLikelihood := fun _ => 0, gradient := fun xs => xs.map fun _ => 0, notify := fun _ => none, seen := fun _ _ => [] }
  obtain ⟨s₁, a1, a2, a3, a4, a5⟩ := (C56_constrain env (PState.fresh [-2, 3]) {0} .fixed).2.1 id (.inl ⟨rfl, rfl⟩)
  obtain ⟨s₂, b1, b2, b3, b4, b5⟩ := (C56_constrain env s₁ {0} .logexp).2.1 _ (.inr ⟨_, rfl, rfl⟩)
  have hl : s₁.params.length = 2 := a3
  have v0 : s₁.params.getD 0 0 = -2 := (a4 0 (by simp [PState.fresh])).trans (by simp [PState.fresh])
  have v1 : s₁.params.getD 1 0 = 3 := (a4 1 (by simp [PState.fresh])).trans (by simp [PState.fresh])
  refine ⟨env, s₁, s₂, a1, b1, (C56_constrain env s₂ {0} (.other 0)).1 (by simp) rfl, v0, (a5 0).1 (by simp), ?_, ?_, (b5 0).1 (by simp)⟩
  · rw [b4 0 (by omega), v0]; simp [logexpTransf]
  · rw [b4 1 (by omega), v1]; simp

/-- C56: after any history of calls, with those that raised, every parameter has at most one prior and at most one constraint. -/
theorem C56_at_most_one (env : ParamEnv) (xs : List ℝ) (ops : List POp) (h : ∀ op ∈ ops, op.InRange xs.length) (i : ℕ) :
    ((runOps env (PState.fresh xs) ops).priorsAt i).Subsingleton ∧ ((runOps env (PState.fresh xs) ops).constraintsAt i).Subsingleton := by
  have hk := runOps_OK env (fresh_OK xs) h
  exact ⟨fun a ha b hb => hk.priors.unique i a b ha hb, fun a ha b hb => hk.constraints.unique i a b ha hb⟩

/-- C56 (partial): when `set_prior` raises. Missing for the full claim, and false: that the parameter is left as it was when it does (see `C56_violated`). A call
returns exactly when the domain of the prior is one of the three known, the model accepts the new values and no fixed constraint is seen afterwards (no
constraint at all for a prior on the reals). -/
theorem C56_raises_partial (env : ParamEnv) (s : PState) (ix : Finset ℕ) (p : ℕ) :
    ((env.prior p).domain ∉ [some "real", some "positive", some "negative"] → (setPrior env s ix p).1 = some .keyError) ∧
    ((env.prior p).domain = some "real" → ((setPrior env s ix p).1 = none ↔ env.seen s.constraints ix = [])) ∧
    ((env.prior p).domain = some "positive" → ((setPrior env s ix p).1 = none ↔
      env.notify (updateAt s.params ix fun x => |x|) = none ∧ ∀ c ∈ env.seen ((s.constraints.removeAll ix).add .logexp ix) ix, c ≠ Con.fixed)) ∧
    ((env.prior p).domain = some "negative" → ((setPrior env s ix p).1 = none ↔
      env.notify (updateAt s.params ix env.negative.init) = none ∧ ∀ c ∈ env.seen ((s.constraints.removeAll ix).add .negativeLogexp ix) ix, c ≠ Con.fixed)) := by
  refine ⟨fun h => ?_, fun h => ?_, fun h => ?_, fun h => ?_⟩
  · unfold setPrior constrainDomain
    simp only [List.mem_cons, List.not_mem_nil, or_false, not_or] at h
    generalize (env.prior p).domain = d at h
    split <;> simp_all
  · unfold setPrior constrainDomain
    rw [h]
    simp only
    by_cases hs : env.seen s.constraints ix = []
    · simp [hs]
    · simp [hs]
  · unfold setPrior constrainDomain
    rw [h]
    simp only [constrain, ParamEnv.transf, logexpTransf]
    cases hn : env.notify (updateAt s.params ix fun x => |x|) with
    | none => simp; exact ⟨fun h c hc e => h (e ▸ hc), fun h hc => h _ hc rfl⟩
    | some e => simp
  · unfold setPrior constrainDomain
    rw [h]
    simp only [constrain, ParamEnv.transf]
    cases hn : env.notify (updateAt s.params ix env.negative.init) with
    | none => simp; exact ⟨fun h c hc e => h (e ▸ hc), fun h hc => h _ hc rfl⟩
    | some e => simp

/-- C56 is false for calls that raise: with a prior whose domain is not set (the default of the class `Prior`), `set_prior` raises KeyError after it has
replaced the prior the parameter had. -/
theorem C56_violated : ∃ (env : ParamEnv) (s : PState) (ix : Finset ℕ) (p q : ℕ) (i : ℕ), i ∈ ix ∧ p ≠ q ∧ s.priorsAt i = {q} ∧
    (∃ xs ops, s = runOps env (PState.fresh xs) ops ∧ ∀ op ∈ ops, op.InRange xs.length) ∧
    (setPrior env s ix p).1 = some .keyError ∧ (setPrior env s ix p).2.priorsAt i = {p} := by
  let env : ParamEnv := { prior := fun k => if k = 0 then gammaPrior 1 1 else ⟨none, id, id⟩, other := fun _ => none, negative := logexpTransf, logLikelihood := fun _ => 0, gradient := fun xs => xs.map fun _ => 0, notify := fun _ => none, seen := fun _ _ => [] }
  refine ⟨env, (setPrior env (PState.fresh [2]) {0} 0).2, {0}, 1, 0, 0, by simp, by simp, (C56_attached env _ {0} 0 0).1 (by simp), ?_, ?_, ?_⟩
  · exact ⟨[2], [.setPrior {0} 0], rfl, by simp [POp.InRange]⟩
  · exact (C56_raises_partial env _ {0} 1).1 (by simp [env])
  · exact (C56_attached env _ {0} 1 0).1 (by simp)

end Verif
