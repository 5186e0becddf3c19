import Verif.Proofs.LLGP
import Verif.Props.Likelihood2
import Verif.Props.Stochastic
import Verif.Model.LLGPState

/-! The gradients of `ApproxLMCLikelihood`. -/

namespace Verif

open Matrix

/-! ### the SKI covariance kernel by kernel -/

theorem list_sum_comm {α β : Type} (l : List α) (l' : List β) (f : α → β → ℝ) : (l.map fun a => (l'.map fun b => f a b).sum).sum = (l'.map fun b => (l.map fun a => f a b).sum).sum := by
  induction l with
  | nil => simp
  | cons a l ih =>
    simp only [List.map_cons, List.sum_cons, ih]
    rw [List.sum_map_add]

theorem sum_filter_map {α : Type} (l : List α) (p : α → Prop) [DecidablePred p] (f : α → ℝ) : ((l.filter fun x => p x).map f).sum = (l.map fun x => if p x then f x else 0).sum := by
  induction l with
  | nil => rfl
  | cons a l ih =>
    by_cases h : p a
    · simp [h, ih]
    · simp [h, ih]

theorem sorted_ext {l l' : List ℕ} (h : l.Pairwise (· < ·)) (h' : l'.Pairwise (· < ·)) (hm : ∀ x, x ∈ l ↔ x ∈ l') : l = l' := by
  have n1 : l.Nodup := h.imp fun hlt => hlt.ne
  have n2 : l'.Nodup := h'.imp fun hlt => hlt.ne
  exact List.Perm.eq_of_pairwise (fun a b _ _ h1 h2 => absurd h1 (not_lt.2 h2.le)) h h' ((List.perm_ext_iff_of_nodup n1 n2).2 hm)

/-- a sum over groups of sums over their kernels is a sum over all kernels -/
theorem sum_groups {fk : FK} {P : ℕ} (h : fk.Ready P) (hg : fk.GroupsOK) (F : List ℕ → ℕ → ℝ) :
    (fk.activeDims.map fun g => (g.2.map fun q => F g.1 q).sum).sum = ∑ q ∈ Finset.range fk.Q, F (fk.kdims q) q := by
  have e1 : ∀ g ∈ fk.activeDims, (g.2.map fun q => F g.1 q).sum = ((List.range fk.Q).map fun q => if fk.kdims q = g.1 then F g.1 q else 0).sum := by
    intro g hgm
    have : g.2 = (List.range fk.Q).filter fun q => fk.kdims q = g.1 := by
      refine sorted_ext (hg.group g hgm).2.1 (List.Pairwise.filter _ List.pairwise_lt_range) fun q => ?_
      rw [List.mem_filter, List.mem_range, decide_eq_true_iff]
      constructor
      · intro hq
        have hlt := (hg.group g hgm).2.2 q hq
        refine ⟨hlt, ?_⟩
        unfold FK.kdims
        rw [(hg.members g hgm q hlt).1 hq]
        rfl
      · rintro ⟨hlt, hk⟩
        rw [hg.members g hgm q hlt]
        obtain ⟨ad, a1, -⟩ := h.dims _ (getD_mem_of_lt (d := .identity none) hlt)
        unfold FK.kdims at hk
        rw [a1] at hk ⊢
        rw [← hk]
        rfl
    conv_lhs => rw [this]
    exact sum_filter_map _ _ _
  rw [List.map_congr_left e1, list_sum_comm, list_sum_range]
  refine Finset.sum_congr rfl fun q hq => ?_
  have hq := Finset.mem_range.1 hq
  obtain ⟨ad, a1, a2⟩ := h.dims _ (getD_mem_of_lt (d := .identity none) hq)
  have hk : fk.kdims q = ad := by unfold FK.kdims; rw [a1]; rfl
  rw [hk]
  obtain ⟨g, g1, rfl⟩ := List.mem_map.1 a2
  have hnd := hg.nodup
  clear a1 a2 hk e1
  generalize fk.activeDims = l at g1 hnd ⊢
  induction l with
  | nil => simp at g1
  | cons g' l ih =>
    rw [List.map_cons, List.nodup_cons] at hnd
    rw [List.map_cons, List.sum_cons]
    rcases List.mem_cons.1 g1 with rfl | hm
    · rw [if_pos rfl]
      have : (l.map fun a => if g.1 = a.1 then F a.1 q else 0) = l.map fun _ => 0 := by
        refine List.map_congr_left fun a ha => if_neg fun e => hnd.1 ?_
        rw [e]
        exact List.mem_map_of_mem ha
      rw [this]
      simp
    · rw [if_neg (fun e : g.1 = g'.1 => hnd.1 (e ▸ List.mem_map_of_mem hm)), zero_add]
      exact ih hm hnd.2

/-- what the extra diagonals contribute to the SKI covariance -/
noncomputable def FK.extraPart (fk : FK) (axes : List ℕ → List (List ℝ)) (extra : List ℕ × List ℕ → ℝ) (a b : ℕ) (x z : ℕ → ℝ) : ℝ :=
  (fk.activeDims.map fun g => ∑ p ∈ Finset.range (gridSize (axes g.1)), ∑ q ∈ Finset.range (gridSize (axes g.1)),
    gridWeight (axes g.1) (coords g.1 x) p * (if a = b ∧ p = q then extra g else 0) * gridWeight (axes g.1) (coords g.1 z) q).sum

theorem finset_list_sum {α : Type} (s : Finset ℕ) (l : List α) (f : ℕ → α → ℝ) : ∑ i ∈ s, (l.map fun x => f i x).sum = (l.map fun x => ∑ i ∈ s, f i x).sum := by
  induction l with
  | nil => simp
  | cons a l ih =>
    simp only [List.map_cons, List.sum_cons, Finset.sum_add_distrib, ih]

theorem skiCov_kernels {fk : FK} {P : ℕ} (h : fk.Ready P) (hg : fk.GroupsOK) (axes : List ℕ → List (List ℝ)) (extra : List ℕ × List ℕ → ℝ) (a b : ℕ) (x z : ℕ → ℝ) :
    fk.skiCov axes extra a b x z = (∑ q ∈ Finset.range fk.Q, fk.B q a b * skiKernel (axes (fk.kdims q)) (fk.kdims q) (fk.kernels.getD q (.identity none)).doc x z) +
      fk.extraPart axes extra a b x z := by
  rw [← sum_groups h hg fun ad q => fk.B q a b * skiKernel (axes ad) ad (fk.kernels.getD q (.identity none)).doc x z]
  unfold FK.skiCov FK.extraPart
  rw [← List.sum_map_add]
  refine congrArg List.sum (List.map_congr_left fun g _ => ?_)
  simp only [mul_add, add_mul, Finset.sum_add_distrib]
  congr 1
  unfold FK.gridCov skiKernel
  simp only [Finset.mul_sum]
  rw [← finset_list_sum]
  refine Finset.sum_congr rfl fun p _ => ?_
  rw [← finset_list_sum]
  refine Finset.sum_congr rfl fun q _ => ?_
  rw [← List.sum_map_mul_left, ← List.sum_map_mul_right]
  exact congrArg List.sum (List.map_congr_left fun k _ => by ring)

/-! ### gradients from derivative operators -/

/-- the operators of a likelihood whose derivative along a covariance change `B` is `Dv B`; `own r` is the output of observation `r`, `kv q f` is
what kernel `q` contributes when its function is `f`, and `fs q` are the derivatives of that function in its hyperparameters -/
structure OpsFor {δ : Type} (ops : LikOps δ) (fk : FK) (own : ℕ → ℕ) (kv : ℕ → (ℝ → ℝ) → ℕ → ℕ → ℝ) (fs : ℕ → List (ℝ → ℝ)) (Dv : (ℕ → ℕ → ℝ) → ℝ) :
    Prop where
  dA : ∀ A : Arr2 ℝ, A.WF → A.rows = fk.D → A.cols = fk.D → ∀ q < fk.Q, (do
    let dK ← ops.dKdA A q
    ops.dL dK) = .ok (Dv fun r s => A.get (own r) (own s) * kv q (fk.kernels.getD q (.identity none)).doc r s)
  dk : ∀ A : Arr2 ℝ, A.WF → A.rows = fk.D → A.cols = fk.D → ∀ q < fk.Q, (do
    let dKs ← ops.dKq A q
    mapExcept ops.dL dKs) = .ok ((fs q).map fun f => Dv fun r s => A.get (own r) (own s) * kv q f r s)
  eps : ∀ i < fk.D, (do
    let dK ← ops.dKEps (vmk fk.D fun j => if j = i then 1 else 0)
    ops.dL dK) = .ok (Dv fun r s => if r = s then (if own r = i then 1 else 0) else 0)
  len : ∀ q < fk.Q, (fs q).length = (fk.kernels.getD q (.identity none)).params.length

/-- the gradients `update_gradient` stores for such a likelihood -/
noncomputable def gradOf (fk : FK) (own : ℕ → ℕ) (kv : ℕ → (ℝ → ℝ) → ℕ → ℕ → ℝ) (fs : ℕ → List (ℝ → ℝ)) (Dv : (ℕ → ℕ → ℝ) → ℝ) : FKGrad where
  vecs := vmk fk.Q fun q => Arr2.of (fk.coregVecs.getD q ⟨0, 0, []⟩).rows fk.D fun i j =>
    Dv fun r s => (dAdt fk.D ((fk.coregVecs.getD q ⟨0, 0, []⟩).row i) j).get (own r) (own s) * kv q (fk.kernels.getD q (.identity none)).doc r s
  diags := vmk fk.Q fun q => vmk fk.D fun i =>
    Dv fun r s => (Arr2.of fk.D fk.D fun a b => if a = i ∧ b = i then (1 : ℝ) else 0).get (own r) (own s) * kv q (fk.kernels.getD q (.identity none)).doc r s
  kernels := vmk fk.Q fun q => (fs q).map fun f => Dv fun r s => (fk.coregMats.getD q ⟨0, 0, []⟩).get (own r) (own s) * kv q f r s
  noise := vmk fk.D fun i => Dv fun r s => if r = s then (if own r = i then 1 else 0) else 0

theorem mapExcept_vmk {β : Type} {n : ℕ} {f : ℕ → Except PyErr β} {g : ℕ → β} (h : ∀ i < n, f i = .ok (g i)) : mapExcept f (List.range n) = .ok (vmk n g) :=
  mapExcept_ok fun i hi => h i (List.mem_range.1 hi)

theorem coregMats_wf {fk : FK} {q : ℕ} (hq : q < fk.coregMats.length) : (fk.coregMats.getD q ⟨0, 0, []⟩).WF := by
  rw [List.getD_eq_getElem _ _ hq]
  have := List.getElem_mem hq
  generalize fk.coregMats[q] = A at this
  unfold FK.coregMats at this
  rw [← List.map_uncurry_zip_eq_zipWith] at this
  obtain ⟨x, -, rfl⟩ := List.mem_map.1 this
  show ((x.1.T.dot x.1).add (npDiagMat x.2)).WF
  exact Arr2.of_wf _ _ _

section
variable {δ : Type} {ops : LikOps δ} {fk : FK} {P : ℕ} {own : ℕ → ℕ} {kv : ℕ → (ℝ → ℝ) → ℕ → ℕ → ℝ} {fs : ℕ → List (ℝ → ℝ)} {Dv : (ℕ → ℕ → ℝ) → ℝ}

theorem OpsFor.vecs (h : fk.Ready P) (ho : OpsFor ops fk own kv fs Dv) : coregVecGradients fk ops = .ok (gradOf fk own kv fs Dv).vecs := by
  unfold coregVecGradients
  rw [show fk.coregVecs.length = fk.Q from h.wf.vecs]
  refine mapExcept_vmk fun q hq => ?_
  obtain ⟨-, hcols, -⟩ := h.wf.vec q hq
  unfold coregVecGradient
  rw [mapExcept_vmk (g := fun i => vmk fk.D fun j => Dv fun r s => (dAdt fk.D ((fk.coregVecs.getD q ⟨0, 0, []⟩).row i) j).get (own r) (own s) *
    kv q (fk.kernels.getD q (.identity none)).doc r s) fun i hi => mapExcept_vmk fun j hj => ho.dA (dAdt fk.D ((fk.coregVecs.getD q ⟨0, 0, []⟩).row i) j) (Arr2.of_wf _ _ _) rfl rfl q hq, ok_bind, hcols]
  show Except.ok _ = _
  congr 1
  exact Arr2.of_congr fun i hi j hj => by rw [vmk_getD_lt hi, vmk_getD_lt hj]

theorem OpsFor.diags (ho : OpsFor ops fk own kv fs Dv) : coregDiagsGradients fk ops = .ok (gradOf fk own kv fs Dv).diags := by
  unfold coregDiagsGradients
  refine mapExcept_vmk fun q hq => ?_
  obtain ⟨gs, h1, h2, h3⟩ := diag_loop (ops := ops) (q := q) (D := fk.D) (R := fun i v => v = Dv fun r s =>
      (Arr2.of fk.D fk.D fun a b => if a = i ∧ b = i then (1 : ℝ) else 0).get (own r) (own s) * kv q (fk.kernels.getD q (.identity none)).doc r s)
    (fun i hi => ⟨_, ho.dA _ (Arr2.of_wf _ _ _) rfl rfl q hq, rfl⟩) fk.D le_rfl
  rw [h1]
  show Except.ok gs = _
  congr 1
  exact list_ext_getD 0 (by rw [h2, vmk_length]) fun i hi => by rw [h3 i (h2 ▸ hi), vmk_getD_lt (h2 ▸ hi)]

theorem OpsFor.kerns (h : fk.Ready P) (ho : OpsFor ops fk own kv fs Dv) : kernelGradients fk ops = .ok (gradOf fk own kv fs Dv).kernels := by
  have hcl := (C31_coreg_entries fk h.wf).1
  unfold kernelGradients
  rw [hcl]
  refine mapExcept_vmk fun q hq => ?_
  obtain ⟨h1, h2, -⟩ := coregMats_B h.wf hq
  exact ho.dk _ (coregMats_wf (by rw [hcl]; exact hq)) h1 h2 q hq

theorem OpsFor.noises (ho : OpsFor ops fk own kv fs Dv) : noiseGradient fk ops = .ok (gradOf fk own kv fs Dv).noise :=
  mapExcept_vmk fun i hi => ho.eps i hi

theorem OpsFor.updateGradient (h : fk.Ready P) (ho : OpsFor ops fk own kv fs Dv) : fk.updateGradient ops = .ok (gradOf fk own kv fs Dv) := by
  have hkl : fk.kernels.length = (gradOf fk own kv fs Dv).kernels.length := by unfold gradOf; simp only [vmk_length]; rfl
  have hz : mapExcept (fun kd : Kern × List ℝ => kd.1.updateGradient kd.2) (fk.kernels.zip (gradOf fk own kv fs Dv).kernels) =
      .ok ((fk.kernels.zip (gradOf fk own kv fs Dv).kernels).map Prod.snd) := by
    refine mapExcept_ok fun kd hkd => C28_update_gradient _ _ ?_
    obtain ⟨i, hi, rfl⟩ := List.getElem_of_mem hkd
    have hi' : i < fk.kernels.length ∧ i < (gradOf fk own kv fs Dv).kernels.length := by rw [List.length_zip] at hi; omega
    rw [List.getElem_zip]
    have := ho.len i hi'.1
    rw [List.getD_eq_getElem _ _ hi'.1] at this
    rw [← List.getD_eq_getElem _ [] hi'.2]
    unfold gradOf
    simp only
    rw [vmk_getD_lt (show i < fk.Q from hi'.1), List.length_map, this]
  unfold FK.updateGradient
  rw [assertP_ok h, ho.vecs h, ho.diags, ho.kerns h, ho.noises]
  simp only [ok_bind, hz, List.map_snd_zip hkl.ge]
  rfl

/-- the number of parameters: the length of the flattened gradient -/
def FK.paramCount (fk : FK) : ℕ :=
  ((List.range fk.Q).map fun q => (fk.coregVecs.getD q ⟨0, 0, []⟩).rows * fk.D).sum + fk.Q * fk.D +
    ((List.range fk.Q).map fun q => (fk.kernels.getD q (.identity none)).params.length).sum + fk.D

theorem OpsFor.flat (h : fk.Ready P) (ho : OpsFor ops fk own kv fs Dv) : ∃ l, flatGradient fk ops = .ok l ∧ l.length = fk.paramCount := by
  unfold flatGradient
  rw [ho.vecs h, ho.diags, ho.kerns h, ho.noises]
  simp only [ok_bind]
  refine ⟨_, rfl, ?_⟩
  unfold FK.paramCount gradOf
  simp only [List.length_append, vmk_length, List.length_flatMap, List.length_flatten]
  congr 2
  · congr 1
    · unfold vmk
      rw [List.map_map]
      refine congrArg List.sum (List.map_congr_left fun q _ => ?_)
      exact Arr2.of_wf _ _ _
    · unfold vmk
      rw [List.map_map]
      simp [Function.comp_def]
  · unfold vmk
    rw [List.map_map]
    refine congrArg List.sum (List.map_congr_left fun q hq => ?_)
    simp only [Function.comp, List.length_map]
    exact ho.len q (List.mem_range.1 hq)

end

/-! ### the operators of `ApproxLMCLikelihood` -/

section
variable {m : LLGP} {P : ℕ}

/-- the group a kernel belongs to -/
theorem kernel_group (h : m.OK P) {k : Kern} (hk : k ∈ m.fk.kernels) :
    ∃ ad gg, k.activeDims = some ad ∧ dictGet m.grids ad = some gg ∧ gg.OK ad m.gp.Xs ∧ m.axesOf ad = gg.axes := by
  obtain ⟨ad, h1, h2⟩ := h.ready.dims k hk
  obtain ⟨g, g1, rfl⟩ := List.mem_map.1 h2
  obtain ⟨gg, g2, -, g3, g4⟩ := h.mem_grids g1
  exact ⟨g.1, gg, h1, g2, g3, g4⟩

/-- the distances of the group of a kernel -/
def LLGP.distsOf (m : LLGP) (k : Kern) : NDArr ℝ := ((dictGet m.grids (k.activeDims.getD [])).map GroupGrid.dists).getD ⟨[], []⟩

theorem distsOf_shape (h : m.OK P) {k : Kern} (hk : k ∈ m.fk.kernels) : (m.distsOf k).shape ≠ [] := by
  obtain ⟨ad, gg, h1, h2, h3, -⟩ := kernel_group h hk
  obtain ⟨d1, -, -⟩ := dists_ravelDiff h3.ne h3.good h3.dists
  unfold LLGP.distsOf
  rw [h1]
  simp only [Option.getD_some, h2, Option.map_some, d1]
  simpa using h3.ne

theorem distsFor_model (h : m.OK P) {k : Kern} (hk : k ∈ m.fk.kernels) :
    distsFor (m.dists.map fun kd => (kd.1, DistArg.arr kd.2)) k = .ok (.arr (m.distsOf k)) := by
  obtain ⟨ad, gg, h1, h2, -, -⟩ := kernel_group h hk
  unfold distsFor LLGP.distsOf
  rw [h1]
  simp only [Option.getD_some]
  refine dictIdx_of_get ?_
  rw [dictGet_mapv (fun d => DistArg.arr d)]
  unfold LLGP.dists
  rw [dictGet_mapv GroupGrid.dists, h2]
  rfl

theorem evalKernels_model (h : m.OK P) :
    m.fk.evalKernels (m.dists.map fun kd => (kd.1, .arr kd.2)) = .ok (m.fk.kernels.map fun k => .arr ⟨(m.distsOf k).shape, (m.distsOf k).data.map k.doc⟩) := by
  unfold FK.evalKernels
  rw [assertP_ok h.ready]
  simp only [ok_bind]
  refine mapExcept_ok fun k hk => ?_
  rw [distsFor_model h hk, ok_bind]
  exact fromDist_arr k (h.ready.valid k hk) _ (distsOf_shape h hk)

/-- `BTTB(f(dists))` for a function `f` of the distance -/
theorem bttb_function (h : m.OK P) {k : Kern} (hk : k ∈ m.fk.kernels) (f : ℝ → ℝ) :
    ∃ M, kvalBttb (.arr ⟨(m.distsOf k).shape, (m.distsOf k).data.map f⟩) = .ok M ∧
      IsMatrix M (gridSize (m.axesOf (k.activeDims.getD []))) (gridSize (m.axesOf (k.activeDims.getD []))) fun i j =>
        f (gridDistance (m.axesOf (k.activeDims.getD [])) i j) := by
  obtain ⟨ad, gg, h1, h2, h3, h4⟩ := kernel_group h hk
  obtain ⟨d', M, c1, c2, c3, c4, c5⟩ := C32_grid_function gg.axes h3.ne h3.good f
  rw [h3.dists] at c1
  cases c1
  have e : m.distsOf k = gg.dists := by
    unfold LLGP.distsOf
    rw [h1]
    simp only [Option.getD_some, h2, Option.map_some]
  rw [e, h1]
  simp only [Option.getD_some, h4]
  refine ⟨M, c4, ?_⟩
  rw [cartesian_length] at c5
  refine c5.congr fun i hi j hj => ?_
  unfold gridDistance
  rw [gridPoint_cartesian hi, gridPoint_cartesian hj]

theorem skiNew_model {K : MatObj} {W : Arr2 ℝ} (hc : 0 < W.cols) (hr : 0 < W.rows) : ∃ S, skiNew K W W.T = .ok S := by
  unfold skiNew wrapNew compositionNew
  simp only [Arr2.T_rows, Arr2.T_cols, matrixInit_eq hr hc, matrixInit_eq hc hr, ok_bind, List.head?_cons,
    List.getLast?_cons_cons, List.getLast?_singleton, pure_bind, matrixInit_eq hr hr]
  exact ⟨_, rfl⟩

theorem model_n_pos (h : m.OK P) : 0 < m.n := by
  exact (gridSetup_of_ok h).pos

/-- what kernel `q` with function `f` contributes to the SKI covariance of observations `r` and `s`, up to the coregionalization -/
noncomputable def LLGP.skiAt (m : LLGP) (q : ℕ) (f : ℝ → ℝ) (r s : ℕ) : ℝ :=
  skiKernel (m.axesOf (m.fk.kdims q)) (m.fk.kdims q) f (rowPoint m.gp.Xs r) (rowPoint m.gp.Xs s)

/-- `_ski(Kronecker(A, BTTB(f(dists))))` -/
theorem approx_ski (h : m.OK P) {l : ApproxLMC} (h1 : l.fk = m.fk) (h2 : l.interp = m.interp) {q : ℕ} (hq : q < m.fk.Q) (f : ℝ → ℝ) {A : Arr2 ℝ}
    (hA : A.WF) (hr : A.rows = m.fk.D) (hc : A.cols = m.fk.D) :
    ∃ K M, kvalBttb (.arr ⟨(m.distsOf (m.fk.kernels.getD q (.identity none))).shape, (m.distsOf (m.fk.kernels.getD q (.identity none))).data.map f⟩) = .ok K ∧
      (do let X ← kronOf (A, K)
          l.ski q X) = .ok M ∧
      SquareOp M m.n fun r s => A.get (ownerOf (m.gp.Xs.map Arr2.rows) r) (ownerOf (m.gp.Xs.map Arr2.rows) s) * m.skiAt q f r s := by
  have hk := getD_mem_of_lt (d := Kern.identity none) hq
  obtain ⟨ad, gg, k1, k2, k3, k4⟩ := kernel_group h hk
  obtain ⟨K, b1, b2⟩ := bttb_function h hk f
  have hD := h.ready.wf.Dpos
  obtain ⟨Am, a1, a2⟩ := isMatrix_numpy hA (by rw [hr]; exact hD) (by rw [hc]; exact hD)
  obtain ⟨X, x1, x2⟩ := isMatrix_kron a2 b2
  rw [k1] at x2
  simp only [Option.getD_some, k4, hr, hc] at x2
  have hsz : 0 < gridSize gg.axes := prod_pos_of_axes k3.good
  have hW := k3.W
  rw [h.data.inputs.len] at hW
  have hWr : gg.W.rows = m.n := by rw [hW]; rfl
  have hWc : gg.W.cols = m.fk.D * gridSize gg.axes := by rw [hW]; rfl
  obtain ⟨S, s1⟩ := skiNew_model (K := X) (W := gg.W) (by rw [hWc]; exact Nat.mul_pos hD hsz) (by rw [hWr]; exact model_n_pos h)
  obtain ⟨s2, s3, s4⟩ := ski_represents x2.represents (by rw [x2.rows, hWc]) (by rw [x2.cols, hWc]) rfl s1
  refine ⟨K, S, b1, ?_, s4.congr fun i hi j hj => ?_, by rw [s2, hWr], by rw [s3, hWr]⟩
  · unfold kronOf
    simp only [a1, ok_bind, x1]
    unfold ApproxLMC.ski
    rw [h1, h2]
    have e1 : m.fk.getActiveDims q = .ok ad := by
      unfold FK.getActiveDims
      rw [List.getElem?_eq_getElem hq]
      rw [List.getD_eq_getElem _ _ hq] at k1
      simp only [k1]
    have e2 : dictIdx m.interp ad = .ok (gg.W, gg.WT) := by
      refine dictIdx_of_get ?_
      unfold LLGP.interp
      rw [dictGet_mapv (fun g : GroupGrid => (g.W, g.WT)), k2]
      rfl
    rw [e1, ok_bind, e2, ok_bind, k3.WT]
    exact s1
  · rw [s2, hWr] at hi
    rw [s3, hWr] at hj
    have hs := sandwich_interp (ad := ad) (axes := gg.axes) h.data.inputs.len (fun i j => A.get (i / gridSize gg.axes) (j / gridSize gg.axes) *
      f (gridDistance gg.axes (i % gridSize gg.axes) (j % gridSize gg.axes))) hi hj
    rw [← hW] at hs
    unfold sandwich at hs
    rw [hs]
    have hkd : m.fk.kdims q = ad := by unfold FK.kdims; rw [k1]; rfl
    unfold LLGP.skiAt skiKernel
    rw [hkd, k4, Finset.mul_sum]
    refine Finset.sum_congr rfl fun p hp => ?_
    rw [Finset.mul_sum]
    refine Finset.sum_congr rfl fun p' hp' => ?_
    have hp := Finset.mem_range.1 hp
    have hp' := Finset.mem_range.1 hp'
    rw [idx_div hp, idx_div hp', idx_mod hp, idx_mod hp']
    ring

/-- the derivatives of the kernels in their hyperparameters, as the code computes them -/
structure GradFns (m : LLGP) (fs : ℕ → List (ℝ → ℝ)) : Prop where
  value : ∀ q < m.fk.Q, (m.fk.kernels.getD q (.identity none)).kernelGradient (.arr (m.distsOf (m.fk.kernels.getD q (.identity none)))) =
    .ok ((fs q).map fun f => .arr ⟨(m.distsOf (m.fk.kernels.getD q (.identity none))).shape, (m.distsOf (m.fk.kernels.getD q (.identity none))).data.map f⟩)
  len : ∀ q < m.fk.Q, (fs q).length = (m.fk.kernels.getD q (.identity none)).params.length
  deriv : ∀ q < m.fk.Q, ∀ j < (m.fk.kernels.getD q (.identity none)).params.length, ∀ r,
    HasDerivAt (fun t => ((m.fk.kernels.getD q (.identity none)).setParam j t).doc r) ((fs q).getD j (fun _ => 0) r)
      ((m.fk.kernels.getD q (.identity none)).params.getD j 0)

theorem exists_gradFns (h : m.OK P) : ∃ fs, GradFns m fs := by
  have : ∀ q, ∃ fs : List (ℝ → ℝ), q < m.fk.Q → (m.fk.kernels.getD q (.identity none)).kernelGradient (.arr (m.distsOf (m.fk.kernels.getD q (.identity none)))) =
      .ok (fs.map fun f => .arr ⟨(m.distsOf (m.fk.kernels.getD q (.identity none))).shape, (m.distsOf (m.fk.kernels.getD q (.identity none))).data.map f⟩) ∧
      fs.length = (m.fk.kernels.getD q (.identity none)).params.length ∧ ∀ j < (m.fk.kernels.getD q (.identity none)).params.length, ∀ r,
        HasDerivAt (fun t => ((m.fk.kernels.getD q (.identity none)).setParam j t).doc r) (fs.getD j (fun _ => 0) r)
          ((m.fk.kernels.getD q (.identity none)).params.getD j 0) := by
    intro q
    by_cases hq : q < m.fk.Q
    · have hk := getD_mem_of_lt (d := Kern.identity none) hq
      obtain ⟨fs, f1, f2, f3⟩ := gradient_arr _ (h.ready.valid _ hk) _ (distsOf_shape h hk)
      exact ⟨fs, fun _ => ⟨f1, f2, f3⟩⟩
    · exact ⟨[], fun h => absurd h hq⟩
  choose fs hfs using this
  exact ⟨fs, fun q hq => (hfs q hq).1, fun q hq => (hfs q hq).2.1, fun q hq => (hfs q hq).2.2⟩

theorem list_eq_vmk {α : Type} (l : List α) (d : α) : l = vmk l.length fun i => l.getD i d := (vmk_self l d).symm

theorem mapExcept_getD {α β : Type} {f : α → Except PyErr β} {g : ℕ → β} (l : List α) (d : α) (h : ∀ i < l.length, f (l.getD i d) = .ok (g i)) :
    mapExcept f l = .ok (vmk l.length g) := by
  conv_lhs => rw [list_eq_vmk l d]
  unfold vmk
  rw [mapExcept_map]
  exact mapExcept_vmk h

theorem evalKernelGradients_model (h : m.OK P) {fs : ℕ → List (ℝ → ℝ)} (hf : GradFns m fs) :
    m.fk.evalKernelGradients (m.dists.map fun kd => (kd.1, .arr kd.2)) = .ok (vmk m.fk.Q fun q => (fs q).map fun f =>
      .arr ⟨(m.distsOf (m.fk.kernels.getD q (.identity none))).shape, (m.distsOf (m.fk.kernels.getD q (.identity none))).data.map f⟩) := by
  unfold FK.evalKernelGradients
  rw [assertP_ok h.ready]
  simp only [ok_bind]
  refine mapExcept_getD _ (.identity none) fun q hq => ?_
  rw [distsFor_model h (getD_mem_of_lt (d := Kern.identity none) hq), ok_bind]
  exact hf.value q hq

theorem kvalBttb_model (h : m.OK P) : ∃ Ks : ℕ → MatObj,
    mapExcept kvalBttb (m.fk.kernels.map fun k => .arr ⟨(m.distsOf k).shape, (m.distsOf k).data.map k.doc⟩) = .ok (vmk m.fk.Q Ks) ∧
    ∀ q < m.fk.Q, kvalBttb (.arr ⟨(m.distsOf (m.fk.kernels.getD q (.identity none))).shape, (m.distsOf (m.fk.kernels.getD q (.identity none))).data.map
      (m.fk.kernels.getD q (.identity none)).doc⟩) = .ok (Ks q) := by
  have : ∀ q, ∃ K, q < m.fk.Q → kvalBttb (.arr ⟨(m.distsOf (m.fk.kernels.getD q (.identity none))).shape,
      (m.distsOf (m.fk.kernels.getD q (.identity none))).data.map (m.fk.kernels.getD q (.identity none)).doc⟩) = .ok K := by
    intro q
    by_cases hq : q < m.fk.Q
    · obtain ⟨M, h1, -⟩ := bttb_function h (getD_mem_of_lt (d := Kern.identity none) hq) (m.fk.kernels.getD q (.identity none)).doc
      exact ⟨M, fun _ => h1⟩
    · exact ⟨⟨0, 0, fun _ => [], fun x => x, ⟨0, 0, []⟩, .error .typeError⟩, fun h => absurd h hq⟩
  choose Ks hK using this
  refine ⟨Ks, ?_, hK⟩
  rw [mapExcept_map]
  exact mapExcept_getD _ (.identity none) fun q hq => hK q hq

/-- the operators of an `ApproxLMCLikelihood` of a model -/
structure ApproxOf (m : LLGP) (fs : ℕ → List (ℝ → ℝ)) (l : ApproxLMC) : Prop where
  fk : l.fk = m.fk
  lens : l.lens = m.lens
  interp : l.interp = m.interp
  kernels : ∃ vals, m.fk.evalKernels (m.dists.map fun kd => (kd.1, .arr kd.2)) = .ok vals ∧ mapExcept kvalBttb vals = .ok l.kernels
  grads : m.fk.evalKernelGradients (m.dists.map fun kd => (kd.1, .arr kd.2)) = .ok l.grads

theorem mapExcept_bind_map {α β γ : Type} {f : α → Except PyErr β} {g : β → Except PyErr γ} {h : α → γ} (l : List α)
    (hl : ∀ x ∈ l, ∃ y, f x = .ok y ∧ g y = .ok (h x)) : (do
      let ys ← mapExcept f l
      mapExcept g ys) = .ok (l.map h) := by
  obtain ⟨ys, y1, y2⟩ := mapExcept_forall2 (f := f) (R := fun x y => f x = .ok y ∧ g y = .ok (h x)) (l := l) fun x hx => by
    obtain ⟨y, h1, h2⟩ := hl x hx
    exact ⟨y, h1, h1, h2⟩
  rw [y1, ok_bind]
  clear y1 hl
  induction y2 with
  | nil => rfl
  | cons h1 _ ih =>
    simp only [mapExcept, h1.2, ok_bind, ih, List.map_cons]
    rfl

theorem approx_opsFor (h : m.OK P) {fs : ℕ → List (ℝ → ℝ)} (hf : GradFns m fs) {l : ApproxLMC} (hl : ApproxOf m fs l) {Dv : (ℕ → ℕ → ℝ) → ℝ}
    (hD : ∀ dK B, SquareOp dK m.n B → l.deriv.derivative dK = .ok (Dv B)) :
    OpsFor l.ops m.fk (ownerOf (m.gp.Xs.map Arr2.rows)) m.skiAt fs Dv := by
  obtain ⟨Ks, K1, K2⟩ := kvalBttb_model h
  have hk : l.kernels = vmk m.fk.Q Ks := by
    obtain ⟨vals, v1, v2⟩ := hl.kernels
    rw [evalKernels_model h] at v1
    cases v1
    rw [K1] at v2
    exact (Except.ok.inj v2).symm
  have hg := hl.grads
  rw [evalKernelGradients_model h hf] at hg
  simp only [Except.ok.injEq] at hg
  have hlen : (m.gp.Xs.map Arr2.rows).length = m.fk.D := by rw [List.length_map, h.data.inputs.len]
  have hlens : m.lens = m.gp.Xs.map Arr2.rows := h.data.lens
  refine ⟨fun A hA hr hc q hq => ?_, fun A hA hr hc q hq => ?_, fun i hi => ?_, hf.len⟩
  · obtain ⟨K, M, s1, s2, s3⟩ := approx_ski h hl.fk hl.interp hq (m.fk.kernels.getD q (.identity none)).doc hA hr hc
    rw [K2 q hq] at s1
    cases s1
    unfold ApproxLMC.ops
    simp only
    have e : l.kernels[q]? = some (Ks q) := by
      rw [hk]
      unfold vmk
      rw [List.getElem?_map, List.getElem?_range hq]
      rfl
    rw [e]
    simp only [ok_bind]
    rw [s2, ok_bind]
    exact hD M _ s3
  · unfold ApproxLMC.ops
    simp only
    rw [← hg, vmk_getD_lt hq, mapExcept_map]
    refine mapExcept_bind_map _ fun f _ => ?_
    obtain ⟨K, M, s1, s2, s3⟩ := approx_ski h hl.fk hl.interp hq f hA hr hc
    refine ⟨M, ?_, hD M _ s3⟩
    rw [s1, ok_bind]
    exact s2
  · unfold ApproxLMC.ops
    simp only
    rw [hl.lens, hlens]
    have hrl : (npRepeat (vmk m.fk.D fun j => if j = i then (1 : ℝ) else 0) (m.gp.Xs.map Arr2.rows)).length = m.n :=
      npRepeat_length _ _ (by rw [vmk_length, hlen])
    obtain ⟨M, hM⟩ := (C09_diag (.vec (npRepeat (vmk m.fk.D fun j => if j = i then (1 : ℝ) else 0) (m.gp.Xs.map Arr2.rows)))).1.2
      ⟨m.n, by rw [← hrl]; rfl, model_n_pos h⟩
    obtain ⟨d1, d2, d3⟩ := diag_represents (vec_wf _) hM
    have hr : M.rows = m.n := by
      have : (NDArr.vec (npRepeat (vmk m.fk.D fun j => if j = i then (1 : ℝ) else 0) (m.gp.Xs.map Arr2.rows))).shape = [m.n] := by rw [← hrl]; rfl
      rw [this] at d1
      simpa using d1.symm
    rw [hM, ok_bind]
    refine hD M _ ⟨d3.congr fun r hr' s hs' => ?_, hr, by rw [d2, hr]⟩
    rw [hr] at hr'
    have : (NDArr.vec (npRepeat (vmk m.fk.D fun j => if j = i then (1 : ℝ) else 0) (m.gp.Xs.map Arr2.rows))).data.getD r 0 =
        if ownerOf (m.gp.Xs.map Arr2.rows) r = i then 1 else 0 := by
      show (npRepeat _ _).getD r 0 = _
      rw [npRepeat_getD _ _ _ (by rw [vmk_length, hlen]) hr', vmk_getD_lt (hlen ▸ ownerOf_lt _ r hr')]
    rw [this]

/-- `derivative` as a function of the entries of its argument, when no vector has the wrong length -/
theorem derivative_value {d : StochDeriv} {n : ℕ} (ha : d.alpha.length = n) (hn : 0 < d.nIt) (hr : ∀ r ∈ d.rs, r.length = n) (hi : ∀ r ∈ d.invRs, r.length = n) :
    ∃ Dv : (ℕ → ℕ → ℝ) → ℝ, ∀ dK B, SquareOp dK n B → d.derivative dK = .ok (Dv B) := by
  refine ⟨fun B => 0.5 * (toVec n d.alpha ⬝ᵥ fnMatrix n n B *ᵥ toVec n d.alpha -
    ((d.rs.zip d.invRs).map fun rr => toVec n rr.2 ⬝ᵥ fnMatrix n n B *ᵥ toVec n rr.1).sum / d.nIt), fun dK B hB => ?_⟩
  unfold StochDeriv.derivative
  rw [if_pos ⟨by rw [hB.rows, ha], by rw [hB.cols, ha]⟩]
  unfold StochDeriv.dLogdetK
  rw [if_neg hn.ne', ok_bind, foldl_add_sum (fun rr : List ℝ × List ℝ => vdot rr.2 (dK.matvec rr.1)), zero_add]
  show Except.ok _ = _
  congr 3
  · unfold StochDeriv.dNormalQuadratic
    rw [vdot_toVec n _ _ ha, toVec_matvec hB _ ha]
  · congr 1
    refine congrArg List.sum (List.map_congr_left fun rr hrr => ?_)
    obtain ⟨h1, h2⟩ := List.of_mem_zip hrr
    rw [vdot_toVec n _ _ (hi _ h2), toVec_matvec hB _ (hr _ h1)]

end

end Verif
