import Verif.Spec.SameCovariance
import Verif.Props.Reached

/-! Lemmas for C96: a model depends on its parameters only through the covariance function. -/

namespace Verif

open Matrix

theorem group_eq_filter {fk : FK} {P : ℕ} (h : fk.Ready P) (hg : fk.GroupsOK) {g : List ℕ × List ℕ} (hgm : g ∈ fk.activeDims) :
    g.2 = (List.range fk.Q).filter fun q => fk.kdims q = g.1 := by
  refine sorted_ext (hg.group g hgm).2.1 (List.Pairwise.filter _ List.pairwise_lt_range) fun q => ?_
  rw [List.mem_filter, List.mem_range, decide_eq_true_iff]
  constructor
  · intro hq
    have hlt := (hg.group g hgm).2.2 q hq
    refine ⟨hlt, ?_⟩
    unfold FK.kdims
    rw [(hg.members g hgm q hlt).1 hq]
    rfl
  · rintro ⟨hlt, hk⟩
    rw [hg.members g hgm q hlt]
    obtain ⟨ad, a1, -⟩ := h.dims _ (getD_mem_of_lt (d := .identity none) hlt)
    unfold FK.kdims at hk
    rw [a1] at hk ⊢
    rw [← hk]
    rfl

theorem gridCov_onDims {fk : FK} {P : ℕ} (h : fk.Ready P) (hg : fk.GroupsOK) {g : List ℕ × List ℕ} (hgm : g ∈ fk.activeDims) (axes : List (List ℝ)) (a b p q : ℕ) :
    fk.gridCov axes g.2 a b p q = fk.onDims g.1 a b (gridDistance axes p q) := by
  unfold FK.gridCov FK.onDims
  rw [group_eq_filter h hg hgm, sum_filter_map, list_sum_range, Finset.sum_filter]

theorem cov_onDims {fk : FK} {P : ℕ} (h : fk.Ready P) (hg : fk.GroupsOK) (a b : ℕ) (x z : ℕ → ℝ) :
    fk.cov a b x z = ((fk.activeDims.map Prod.fst).map fun ad => fk.onDims ad a b (distOn ad x z)).sum := by
  unfold FK.cov
  rw [← sum_groups h hg fun ad q => fk.B q a b * (fk.kernels.getD q (.identity none)).doc (distOn ad x z), List.map_map]
  refine congrArg List.sum (List.map_congr_left fun g hgm => ?_)
  show _ = fk.onDims g.1 a b (distOn g.1 x z)
  unfold FK.onDims
  rw [group_eq_filter h hg hgm, sum_filter_map, list_sum_range, Finset.sum_filter]

theorem key_iff {fk : FK} {P : ℕ} (h : fk.Ready P) (hg : fk.GroupsOK) (ad : List ℕ) : ad ∈ fk.activeDims.map Prod.fst ↔ ∃ q < fk.Q, fk.kdims q = ad := by
  constructor
  · intro had
    obtain ⟨g, hgm, rfl⟩ := List.mem_map.1 had
    obtain ⟨q, hq⟩ := List.exists_mem_of_ne_nil _ (hg.group g hgm).1
    rw [group_eq_filter h hg hgm, List.mem_filter, List.mem_range, decide_eq_true_iff] at hq
    exact ⟨q, hq⟩
  · rintro ⟨q, hq, rfl⟩
    obtain ⟨ad, a1, a2⟩ := h.dims _ (getD_mem_of_lt (d := .identity none) hq)
    unfold FK.kdims
    rw [a1]
    exact a2

/-- two models of the same data with the same grids whose parameters describe the same covariance function -/
structure SameFunction (P : ℕ) (m m' : LLGP) : Prop where
  ok : m.OK P
  ok' : m'.OK P
  same : SameCovariance m.fk m'.fk
  spoiled : SpoiledAlike m.fk m'.fk
  mode : m'.prediction = m.prediction
  gp : m'.gp = m.gp
  axes : ∀ ad ∈ m.fk.activeDims.map Prod.fst, m'.axesOf ad = m.axesOf ad

namespace SameFunction

variable {P : ℕ} {m m' : LLGP} (R : SameFunction P m m')
include R

theorem keys : (m'.fk.activeDims.map Prod.fst).Perm (m.fk.activeDims.map Prod.fst) := by
  rw [List.perm_ext_iff_of_nodup R.ok'.groups.nodup R.ok.groups.nodup]
  intro ad
  rw [key_iff R.ok.ready R.ok.groups, key_iff R.ok'.ready R.ok'.groups]
  exact R.same.dims ad

theorem cov {a b : ℕ} (ha : a < m.fk.D) (hb : b < m.fk.D) (x z : ℕ → ℝ) : m'.fk.cov a b x z = m.fk.cov a b x z := by
  rw [cov_onDims R.ok.ready R.ok.groups, cov_onDims R.ok'.ready R.ok'.groups, (R.keys.map _).sum_eq]
  exact congrArg List.sum (List.map_congr_left fun ad _ => R.same.parts ad a ha b hb _ (Real.sqrt_nonneg _))

/-- the contribution of a group of dimensions to the interpolated covariance -/
theorem groupCov {g g' : List ℕ × List ℕ} (hg : g ∈ m.fk.activeDims) (hg' : g' ∈ m'.fk.activeDims) (he : g'.1 = g.1) {a b : ℕ} (ha : a < m.fk.D) (hb : b < m.fk.D)
    (axes : List (List ℝ)) (p q : ℕ) :
    (m'.fk.gridCov axes g'.2 a b p q + if a = b ∧ p = q then m'.fk.extraOf g' else 0) = m.fk.gridCov axes g.2 a b p q + if a = b ∧ p = q then m.fk.extraOf g else 0 := by
  rw [gridCov_onDims R.ok.ready R.ok.groups hg, gridCov_onDims R.ok'.ready R.ok'.groups hg', he,
    R.same.parts _ a ha b hb (gridDistance axes p q) (Real.sqrt_nonneg _)]
  have : m'.fk.extraOf g' = m.fk.extraOf g := by
    unfold FK.extraOf
    have hiff := R.spoiled g hg g' hg' he
    by_cases hsp : Spoiled m.fk g
    · rw [if_pos hsp, if_pos (hiff.2 hsp)]
    · rw [if_neg hsp, if_neg fun h => hsp (hiff.1 h)]
  rw [this]

end SameFunction

open Classical in
theorem sum_by_key {l : List (List ℕ × List ℕ)} (hn : (l.map Prod.fst).Nodup) (F : List ℕ × List ℕ → ℝ) :
    (l.map F).sum = ((l.map Prod.fst).map fun ad => if h : ∃ g ∈ l, g.1 = ad then F h.choose else 0).sum := by
  rw [List.map_map]
  refine congrArg List.sum (List.map_congr_left fun g hg => ?_)
  have h : ∃ g' ∈ l, g'.1 = g.1 := ⟨g, hg, rfl⟩
  have e : h.choose = g := by
    obtain ⟨h1, h2⟩ := h.choose_spec
    exact List.inj_on_of_nodup_map hn h1 hg h2
  simp only [Function.comp]
  rw [dif_pos h, e]

namespace SameFunction

variable {P : ℕ} {m m' : LLGP} (R : SameFunction P m m')
include R

theorem skiCov {a b : ℕ} (ha : a < m.fk.D) (hb : b < m.fk.D) (x z : ℕ → ℝ) :
    m'.fk.skiCov m'.axesOf m'.fk.extraOf a b x z = m.fk.skiCov m.axesOf m.fk.extraOf a b x z := by
  unfold FK.skiCov
  rw [sum_by_key R.ok.groups.nodup, sum_by_key R.ok'.groups.nodup, (R.keys.map _).sum_eq]
  refine congrArg List.sum (List.map_congr_left fun ad had => ?_)
  have h : ∃ g ∈ m.fk.activeDims, g.1 = ad := by
    obtain ⟨g, hg, e⟩ := List.mem_map.1 had
    exact ⟨g, hg, e⟩
  have h' : ∃ g ∈ m'.fk.activeDims, g.1 = ad := by
    obtain ⟨g, hg, e⟩ := List.mem_map.1 (R.keys.mem_iff.2 had)
    exact ⟨g, hg, e⟩
  rw [dif_pos h, dif_pos h']
  obtain ⟨h1, h2⟩ := h.choose_spec
  obtain ⟨h1', h2'⟩ := h'.choose_spec
  generalize h.choose = g at *
  generalize h'.choose = g' at *
  have he : g'.1 = g.1 := by rw [h2, h2']
  rw [he, R.axes g.1 (List.mem_map_of_mem h1)]
  exact Finset.sum_congr rfl fun p _ => Finset.sum_congr rfl fun q _ => by rw [R.groupCov h1 h1' he ha hb]

theorem crossCov {d : ℕ} (hd : d < m.fk.D) (x : ℕ → ℝ) : m'.fk.crossCov m.gp.Xs d x = m.fk.crossCov m.gp.Xs d x := by
  funext s
  exact R.cov hd (owner_lt R.ok.data.inputs.len s) _ _

theorem skiCross {d : ℕ} (hd : d < m.fk.D) (x : ℕ → ℝ) : m'.fk.skiCross m'.axesOf m'.fk.extraOf m.gp.Xs d x = m.fk.skiCross m.axesOf m.fk.extraOf m.gp.Xs d x := by
  funext s
  exact R.skiCov hd (owner_lt R.ok.data.inputs.len s) _ _

theorem fullCov {r s : ℕ} (hr : r < m.n) (hs : s < m.n) : m'.fk.fullCov m.gp.Xs r s = m.fk.fullCov m.gp.Xs r s := by
  unfold FK.fullCov
  simp only
  rw [R.cov (owner_lt_D R.ok hr) (owner_lt_D R.ok hs), R.same.noise _ (owner_lt_D R.ok hr)]

theorem covMat : m'.fk.covMat m.gp.Xs = m.fk.covMat m.gp.Xs := by
  ext i j
  exact R.fullCov i.2 j.2

theorem skiMat : m'.fk.skiMat m'.axesOf m'.fk.extraOf m.gp.Xs = m.fk.skiMat m.axesOf m.fk.extraOf m.gp.Xs := by
  ext i j
  show m'.fk.skiFull _ _ _ i j = m.fk.skiFull _ _ _ i j
  unfold FK.skiFull
  simp only
  rw [R.skiCov (owner_lt R.ok.data.inputs.len i) (owner_lt R.ok.data.inputs.len j), R.same.noise _ (owner_lt R.ok.data.inputs.len i)]

theorem gridToData {g g' : List ℕ × List ℕ} (hg : g ∈ m.fk.activeDims) (hg' : g' ∈ m'.fk.activeDims) (he : g'.1 = g.1) {d : ℕ} (hd : d < m.fk.D) (p : ℕ) :
    m'.fk.gridToData (m'.axesOf g'.1) m'.fk.extraOf g' m.gp.Xs d p = m.fk.gridToData (m.axesOf g.1) m.fk.extraOf g m.gp.Xs d p := by
  funext s
  unfold FK.gridToData
  rw [he, R.axes g.1 (List.mem_map_of_mem hg)]
  exact Finset.sum_congr rfl fun q _ => by rw [R.groupCov hg hg' he hd (owner_lt R.ok.data.inputs.len s)]

theorem mean {d : ℕ} (hd : d < m.fk.D) (x : ℕ → ℝ) : m'.fk.skiMean m'.axesOf m'.fk.extraOf m.gp.Xs m.gp.Ys d x = m.fk.skiMean m.axesOf m.fk.extraOf m.gp.Xs m.gp.Ys d x := by
  unfold FK.skiMean
  rw [R.skiCross hd, R.skiMat]

theorem priorVar {d : ℕ} (hd : d < m.fk.D) (x : ℕ → ℝ) : m'.fk.priorVar d x = m.fk.priorVar d x := by
  unfold FK.priorVar
  rw [R.cov hd hd, R.same.noise d hd]

theorem explained {sv : Solvers} (hs : sv.Fit) (hx : sv.Exact) {k k' : LLKernel} (hc : m.Current sv k) (hc' : m'.Current sv k') (hso : m.fk.Sound) (hso' : m'.fk.Sound)
    (hn : ∀ ad ∈ m.fk.activeDims.map Prod.fst, ad.Nodup) {e e' : Env} (he : e.Works) (he' : e'.Works) {Xs : List (Arr2 ℝ)} (hX : InputsOK m.fk.D P Xs) :
    m'.explained sv e' Xs (m'.queryWs Xs) = m.explained sv e Xs (m.queryWs Xs) ∧
      ∀ ex, m.explained sv e Xs (m.queryWs Xs) = .ok ex → ex.length = (Xs.map Arr2.rows).sum := by
  have hn' : ∀ ad ∈ m'.fk.activeDims.map Prod.fst, ad.Nodup := fun ad h => hn ad (R.keys.mem_iff.1 h)
  have hX' : InputsOK m'.fk.D P Xs := by rw [R.same.outputs]; exact hX
  have hxs := exact_of_current hs hx R.ok hc hso hn
  have hxs' := exact_of_current hs hx R.ok' hc' hso' hn'
  have hpd := covMat_posDef R.ok.ready.wf R.ok.data.inputs.len hso.kernels hso.kappa hso.noise
  have hpd' := covMat_posDef R.ok'.ready.wf R.ok'.data.inputs.len hso'.kernels hso'.kappa hso'.noise
  have own : ∀ {r}, r < (Xs.map Arr2.rows).sum → ownerOf (Xs.map Arr2.rows) r < m.fk.D := fun {r} hr => owner_lt hX.len ⟨r, hr⟩
  cases hm : m.prediction with
  | exact =>
    rw [(explained_exact R.ok hm hX sv e _).1 hpd, (explained_exact R.ok' (R.mode.trans hm) hX' sv e' _).1 hpd', R.gp]
    refine ⟨congrArg Except.ok (vmk_congr fun r hr => ?_), fun ex h => by rw [← Except.ok.inj h, vmk_length]⟩
    rw [R.crossCov (own hr), R.covMat]
  | onTheFly =>
    by_cases h0 : 0 < (Xs.map Arr2.rows).sum
    · rw [explained_fly_exact hs R.ok hm hc (hxs _) he hX h0, explained_fly_exact hs R.ok' (R.mode.trans hm) hc' (hxs' _) he' hX' h0, R.gp]
      refine ⟨congrArg Except.ok (vmk_congr fun r hr => ?_), fun ex h => by rw [← Except.ok.inj h, vmk_length]⟩
      rw [R.crossCov (own hr), R.skiMat]
    · have h0 : (Xs.map Arr2.rows).sum = 0 := by omega
      rw [explained_fly_none R.ok hm hc hX (he 0) h0, explained_fly_none R.ok' (R.mode.trans hm) hc' hX' (he' 0) h0]
      exact ⟨rfl, fun ex h => by cases h⟩
  | precompute =>
    have hm' := R.mode.trans hm
    obtain ⟨f1, f2⟩ := explained_pre_fails (sv := sv) R.ok hm e Xs (m.queryWs Xs)
    obtain ⟨f1', f2'⟩ := explained_pre_fails (sv := sv) R.ok' hm' e' Xs (m'.queryWs Xs)
    have hlen : m'.fk.activeDims.length = m.fk.activeDims.length := by simpa using R.keys.length_eq
    by_cases hl : m.fk.activeDims.length = 1
    · obtain ⟨g, hg⟩ := List.length_eq_one_iff.1 hl
      obtain ⟨g', hg'⟩ := List.length_eq_one_iff.1 (hlen.trans hl)
      have heq : g'.1 = g.1 := by
        have := R.keys
        rw [hg, hg'] at this
        simpa using this
      by_cases hg1 : g.1 = List.range P
      · rw [explained_pre_exact hs R.ok hm hc (hxs _) he hX hg hg1, explained_pre_exact hs R.ok' hm' hc' (hxs' _) he' hX' hg' (heq.trans hg1), R.gp]
        refine ⟨congrArg Except.ok (vmk_congr fun r hr => ?_), fun ex h => by rw [← Except.ok.inj h, vmk_length]⟩
        have hgm : g ∈ m.fk.activeDims := by rw [hg]; simp
        have hgm' : g' ∈ m'.fk.activeDims := by rw [hg']; simp
        have e1 : ∀ p, m'.fk.gridExplained m'.axesOf m'.fk.extraOf g' m.gp.Xs (ownerOf (Xs.map Arr2.rows) r) p =
            m.fk.gridExplained m.axesOf m.fk.extraOf g m.gp.Xs (ownerOf (Xs.map Arr2.rows) r) p := fun p => by
          unfold FK.gridExplained
          rw [R.gridToData hgm hgm' heq (own hr), R.skiMat]
        simp only [e1]
        rw [heq, R.axes g.1 (List.mem_map_of_mem hgm)]
      · rw [f2 g hg hg1, f2' g' hg' (by rw [heq]; exact hg1)]
        exact ⟨rfl, fun ex h => by cases h⟩
    · rw [f1 hl, f1' (by rw [hlen]; exact hl)]
      exact ⟨rfl, fun ex h => by cases h⟩

theorem raw {sv : Solvers} (hs : sv.Fit) (hx : sv.Exact) {k k' : LLKernel} (hc : m.Current sv k) (hc' : m'.Current sv k') (hso : m.fk.Sound) (hso' : m'.fk.Sound)
    (hn : ∀ ad ∈ m.fk.activeDims.map Prod.fst, ad.Nodup) {e e' : Env} (he : e.Works) (he' : e'.Works) {Xs : List (Arr2 ℝ)} (hX : InputsOK m.fk.D P Xs) :
    m'.rawPredict sv e' Xs = m.rawPredict sv e Xs := by
  have hn' : ∀ ad ∈ m'.fk.activeDims.map Prod.fst, ad.Nodup := fun ad h => hn ad (R.keys.mem_iff.1 h)
  have hX' : InputsOK m'.fk.D P Xs := by rw [R.same.outputs]; exact hX
  obtain ⟨h1, h2⟩ := R.explained hs hx hc hc' hso hso' hn he he' hX
  cases h3 : m.explained sv e Xs (m.queryWs Xs) with
  | error x =>
    rw [raw_explained_error hs R.ok hc hX e hso.plain h3, raw_explained_error hs R.ok' hc' hX' e' hso'.plain (h1.trans h3)]
  | ok ex =>
    obtain ⟨p, p1, -, p3⟩ := raw_ok hs R.ok hc hX hso.plain e h3 (h2 ex h3)
    obtain ⟨p', q1, -, q3⟩ := raw_ok hs R.ok' hc' hX' hso'.plain e' (h1.trans h3) (h2 ex h3)
    rw [p1, q1]
    rw [R.same.outputs] at q3
    refine congrArg Except.ok (predictedAs_unique p3 q3 fun d hd i hi => ⟨?_, ?_⟩)
    · rw [meanWith_exact R.ok hc (exact_of_current hs hx R.ok hc hso hn _), meanWith_exact R.ok' hc' (exact_of_current hs hx R.ok' hc' hso' hn' _), R.gp]
      exact R.mean hd _
    · rw [R.priorVar hd]

theorem numbers {sv : Solvers} (hs : sv.Fit) (hx : sv.Exact) {k k' : LLKernel} (hc : m.Current sv k) (hc' : m'.Current sv k') (hso : m.fk.Sound) (hso' : m'.fk.Sound)
    (hn : ∀ ad ∈ m.fk.activeDims.map Prod.fst, ad.Nodup) :
    ∃ l l', m.dense = .ok l ∧ m'.dense = .ok l' ∧ l'.K = l.K ∧ logDetOf l' = logDetOf l ∧ m'.normalQuadratic = m.normalQuadratic ∧
      m'.logLikelihoodOf l' = m.logLikelihoodOf l := by
  have hn' : ∀ ad ∈ m'.fk.activeDims.map Prod.fst, ad.Nodup := fun ad h => hn ad (R.keys.mem_iff.1 h)
  have hpd := covMat_posDef R.ok.ready.wf R.ok.data.inputs.len hso.kernels hso.kappa hso.noise
  have hpd' := covMat_posDef R.ok'.ready.wf R.ok'.data.inputs.len hso'.kernels hso'.kappa hso'.noise
  obtain ⟨l, hl, hd⟩ := (C40_log_det m P R.ok).1 hpd
  obtain ⟨l', hl', hd'⟩ := (C40_log_det m' P R.ok').1 hpd'
  obtain ⟨l₁, hl₁, cl⟩ := (exactLMC_contents R.ok.ready R.ok.data).1 hpd
  obtain ⟨l₂, hl₂, cl'⟩ := (exactLMC_contents R.ok'.ready R.ok'.data).1 hpd'
  have e1 : l₁ = l := Except.ok.inj (hl₁.symm.trans hl)
  have e2 : l₂ = l' := Except.ok.inj (hl₂.symm.trans hl')
  subst e1
  subst e2
  obtain ⟨q1, q2⟩ := C40_log_likelihood sv hs m P R.ok k hc _ hl
  obtain ⟨q1', q2'⟩ := C40_log_likelihood sv hs m' P R.ok' k' hc' _ hl'
  have hn1 : m'.n = m.n := by unfold LLGP.n; rw [R.gp]
  have hy : m'.y = m.y := by unfold LLGP.y; rw [R.gp]
  have hdet : (m'.fk.covMat m'.gp.Xs).det = (m.fk.covMat m.gp.Xs).det := by rw [R.gp, R.covMat]
  have hq : toVec m'.n m'.y ⬝ᵥ toVec m'.n k'.approx.alpha = toVec m.n m.y ⬝ᵥ toVec m.n k.approx.alpha := by
    rw [alpha_exact R.ok hc (exact_of_current hs hx R.ok hc hso hn _), alpha_exact R.ok' hc' (exact_of_current hs hx R.ok' hc' hso' hn' _)]
    have := R.skiMat
    unfold LLGP.n
    rw [R.gp, this, hy]
  refine ⟨_, _, hl, hl', ?_, ?_, ?_, ?_⟩
  · rw [cl.K, cl'.K, R.gp]
    refine Arr2.of_congr fun i hi j hj => R.fullCov hi hj
  · rw [hd, hd', hdet]
  · rw [q1, q1', hq]
  · rw [q2, q2', hq, hdet, hn1]

end SameFunction

end Verif
