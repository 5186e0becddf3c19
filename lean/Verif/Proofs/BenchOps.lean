import Verif.Proofs.BenchRun
import Verif.Proofs.LLGPComplete
import Verif.Props.Likelihood2

/-! The operators of the benchmark program. -/

namespace Verif

open Matrix

/-- a `GridKernel` of a given representation for a group that has kernels of more than one kind, or LMC kernels -/
theorem gridKernelNew_represents {fk : FK} {dists : List (List ℕ × NDArr ℝ)} {interp : List (List ℕ × (Arr2 ℝ × Arr2 ℝ))} {lens : List ℕ}
    {d : List ℕ → NDArr ℝ} {W : List ℕ → Arr2 ℝ} {n : ℕ} (h : GridSetup fk dists interp lens d W n) {g : List ℕ × List ℕ}
    (hg : g ∈ fk.activeDims) (hno : ¬ ((∀ q ∈ g.2, fk.IsIndep q) ∨ ∀ q ∈ g.2, fk.IsSlfm q)) (kt : KType) :
    ∃ G, gridKernelNew fk (d g.1) (W g.1) (W g.1).T kt g.1 = .ok G ∧ G.obj.rows = n ∧ G.obj.cols = n ∧
      Represents G.obj (sandwich (W g.1) (groupGrid fk (d g.1) g.2)) := by
  obtain ⟨d1, d2, d3, d4⟩ := h.dist g hg
  obtain ⟨w1, w2, w3⟩ := h.interp g hg
  obtain ⟨g1, g2, g3⟩ := h.ok.group g hg
  have hget := (mem_iff_dictGet h.ok.nodup g.1 g.2).1 hg
  have hev : fk.evalKernelsFixedDim (.arr (d g.1)) g.1 = .ok (g.2.map fun q => .arr ⟨(d g.1).shape,
      (d g.1).data.map (fk.kernels.getD q (.identity none)).doc⟩) := by
    unfold FK.evalKernelsFixedDim
    rw [dictIdx_of_get hget, ok_bind]
    refine mapExcept_ok fun q hq => ?_
    exact fromDist_arr _ (h.valid _ (getD_mem _ (g3 q hq))) _ d3
  have hst := stackTops_eq (d g.1).shape (fun q => (d g.1).data.map (fk.kernels.getD q (.identity none)).doc) g.2 g1
  have hin : GridInput fk g.1 g.2 (g.2.map fun q => (d g.1).data.map (fk.kernels.getD q (.identity none)).doc) (d g.1).shape :=
    ⟨h.wf, h.ok, hg, by simp, by
      intro t ht; obtain ⟨q, -, rfl⟩ := List.mem_map.1 ht
      rw [List.length_map]; exact d2, d4, d3⟩
  obtain ⟨K, hK, hK'⟩ : ∃ K, genGridK fk (g.2.map fun q => (d g.1).data.map (fk.kernels.getD q (.identity none)).doc) (d g.1).shape
      (W g.1).cols kt g.1 = .ok K ∧ IsMatrix K (W g.1).cols (W g.1).cols (groupGrid fk (d g.1) g.2) := by
    rw [w3]
    cases kt
    · obtain ⟨K, hK, hK'⟩ := (C33_sum_bt hin).1
      exact ⟨K, hK, hK'.congr fun i _ j _ => rfl⟩
    · obtain ⟨K, hK, hK'⟩ := (C33_sum_bt hin).2
      exact ⟨K, hK, hK'.congr fun i _ j _ => rfl⟩
    · obtain ⟨K, hK, hK'⟩ := C33_slfm_exact hin
      refine ⟨K, hK, hK'.congr fun i _ j _ => ?_⟩
      rw [if_neg hno, add_zero]
      rfl
  have hs : ∃ S, skiNew K (W g.1) (W g.1).T = .ok S := by
    have hc : 0 < (W g.1).cols := by rw [w3]; exact Nat.mul_pos h.wf.Dpos d4
    have hr : 0 < (W g.1).rows := by rw [w2]; exact h.pos
    unfold skiNew wrapNew compositionNew
    simp only [Arr2.T_rows, Arr2.T_cols, matrixInit_eq hr hc, matrixInit_eq hc hr, ok_bind, List.head?_cons,
      List.getLast?_cons_cons, List.getLast?_singleton, pure_bind, matrixInit_eq hr hr]
    exact ⟨_, rfl⟩
  obtain ⟨S, hS⟩ := hs
  obtain ⟨s1, s2, hR⟩ := ski_represents hK'.represents hK'.rows hK'.cols rfl hS
  refine ⟨_, by
    unfold gridKernelNew
    simp only [ok_bind, matrixInit_eq (w2 ▸ h.pos) (w2 ▸ h.pos), hev, hst, hK, hS]
    rfl, w2, w2, ?_⟩
  have hp : 0 < (W g.1).rows := by rw [w2]; exact h.pos
  have mv : ∀ x : List ℝ, x.length = (W g.1).rows → S.matvec x = vmk (W g.1).rows fun i => ∑ j ∈ Finset.range (W g.1).rows,
      sandwich (W g.1) (groupGrid fk (d g.1) g.2) i j * x.getD j 0 := by
    intro x hx
    have := hR.matvec x (by rw [s2, hx])
    rw [s1, s2] at this
    exact this
  refine Represents.ofDefault hp hp mv rfl ?_
  show defaultMatmat _ _ _ = _
  rw [defaultMatmat_eq mv (Arr2.eye _) rfl]
  exact matmat_eye

namespace BenchBuilt

variable {a : BenchArgs} {r : BenchDraws} {c : String × ℕ × String} {b : BenchSetup}

/-- the only group holds all kernels, and they are LMC kernels -/
theorem groups (hb : BenchBuilt a r c b) : b.fkern.activeDims = [([0], List.range a.q.toNat)] := by
  obtain ⟨ks, -, -, -, -, -, g3, -⟩ := hb.fk
  exact g3

theorem mixed (hc : benchChecks a = .ok c) (hb : BenchBuilt a r c b) {g : List ℕ × List ℕ} (hg : g ∈ b.fkern.activeDims) :
    ¬ ((∀ q ∈ g.2, b.fkern.IsIndep q) ∨ ∀ q ∈ g.2, b.fkern.IsSlfm q) := by
  obtain ⟨h1, h2, h3, h4, h5, -⟩ := benchChecks_ok hc
  rw [hb.groups, List.mem_singleton] at hg
  subst hg
  obtain ⟨l1, l2, -⟩ := hb.lmc
  have h0 : (0 : ℕ) ∈ List.range a.q.toNat := List.mem_range.2 (by omega)
  rintro (h | h)
  · have := h 0 h0
    unfold FK.IsIndep at this
    rw [l1, l2] at this
    omega
  · have := h 0 h0
    unfold FK.IsSlfm at this
    rw [l1, l2] at this
    omega

/-- every representation gives the operator of the model's SKI covariance -/
theorem operator (hc : benchChecks a = .ok c) (hb : BenchBuilt a r c b) {m : LLGP} (h : m.OK 1) (hf : m.fk = b.fkern) (hX : m.gp.Xs = b.Xs)
    (hd : m.dists = [([0], b.gridDists)]) (hi : m.interp = [([0], (b.W, b.WT))]) (kt : KType) :
    ∃ K, b.operator kt = .ok K ∧ SquareOp K m.n (m.fk.skiFull m.axesOf m.fk.extraOf m.gp.Xs) := by
  have hs := gridSetup_of_ok h
  have hg : (([0], List.range a.q.toNat) : List ℕ × List ℕ) ∈ m.fk.activeDims := by rw [hf, hb.groups]; simp
  obtain ⟨G, g1, g2, g3, g4⟩ := gridKernelNew_represents hs hg (by rw [hf]; exact hb.mixed hc (by rw [hb.groups]; simp)) kt
  obtain ⟨d1, -⟩ := hs.dist _ hg
  obtain ⟨w1, -⟩ := hs.interp _ hg
  rw [hd] at d1
  rw [hi] at w1
  simp only [dictGet, if_true, Option.some.injEq, Prod.mk.injEq] at d1 w1
  rw [← d1, ← w1.2, ← w1.1] at g1
  have hlen : (npRepeat m.fk.noise m.lens).length = m.n := by
    rw [npRepeat_length _ _ (by rw [hs.wf.noise, hs.lensD]), hs.sum]
  obtain ⟨N, hN⟩ := (C09_diag (.vec (npRepeat m.fk.noise m.lens))).1.2 ⟨m.n, by simp [NDArr.vec, hlen], hs.pos⟩
  obtain ⟨n1, n2, n3⟩ := diag_represents (vec_wf _) hN
  have n1' : N.rows = m.n := by simp [NDArr.vec] at n1; omega
  obtain ⟨M, hM, m1, m2, m3⟩ := sum_represents (n := m.n) (xs := [true, false]) (Ks := [G.obj, N])
    (A := fun x i j => if x then sandwich _ (groupGrid m.fk _ _) i j else if i = j then (npRepeat m.fk.noise m.lens).getD i 0 else 0) (by simp)
    (.cons ⟨g2, g3, by simpa using g4⟩ (.cons ⟨n1', n2.trans n1', by simp only [Bool.false_eq_true, if_false]; exact n3⟩ .nil))
  have hl : m.lens = b.Xs.map Arr2.rows := by
    unfold LLGP.lens
    rw [h.data.lens, hX]
  refine ⟨M, ?_, ?_, m1, m2⟩
  · unfold BenchSetup.operator
    rw [← hf, g1, ok_bind, ← hl, hN, ok_bind, hM]
  · refine m3.congr fun i hi j hj => ?_
    rw [m1] at hi
    rw [m2] at hj
    unfold FK.skiFull FK.skiCov
    simp only [List.map_cons, List.map_nil, List.sum_cons, List.sum_nil, add_zero, if_true, Bool.false_eq_true, if_false]
    congr 1
    · rw [show m.fk.activeDims = [([0], List.range a.q.toNat)] by rw [hf, hb.groups]]
      simp only [List.map_cons, List.map_nil, List.sum_cons, List.sum_nil, add_zero]
      have hi' : i < (m.gp.Xs.map Arr2.rows).sum := hi
      have hj' : j < (m.gp.Xs.map Arr2.rows).sum := hj
      show sandwich (Arr2.of m.n _ _) _ i j = _
      unfold LLGP.n
      rw [sandwich_interp h.data.inputs.len _ hi' hj']
      refine Finset.sum_congr rfl fun p hp => Finset.sum_congr rfl fun q hq => ?_
      have hns : ¬ Spoiled m.fk ([0], List.range a.q.toNat) := fun hsp => by
        have := hsp.2
        rw [hf] at this
        exact hb.mixed hc (g := ([0], List.range a.q.toNat)) (by rw [hb.groups]; simp) this
      have := groupGrid_extra h hg (owner_lt_D h hi) (owner_lt_D h hj) (Finset.mem_range.1 hp) (Finset.mem_range.1 hq)
      rw [if_neg hns, add_zero] at this
      rw [this]
    · rw [npRepeat_getD _ _ _ (by rw [hs.wf.noise, hs.lensD]) (by rw [hs.sum]; exact hi)]
      unfold LLGP.lens
      rw [h.data.lens]

end BenchBuilt

end Verif
