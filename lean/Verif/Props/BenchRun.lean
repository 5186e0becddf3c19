import Verif.Proofs.BenchOpt

/-! C106: the benchmark program measures the model's own operators. -/

namespace Verif

open Matrix

section
variable {a : BenchArgs} {r : BenchDraws} {c : String × ℕ × String} {b : BenchSetup}

/-- C106, set-up: for arguments that pass the checks, the benchmark is run with `d` outputs of `n_o` inputs in one dimension, `q` kernels of the type asked for,
the vectors, `kappa` and noises drawn, and the test type asked for. -/
theorem C106_setup (hc : benchChecks a = .ok c) (hu : r.Usual a) :
    ∃ b, benchMain a r = .ok b ∧ b.testtype = c.2.2 ∧ b.fkern.D = a.d.toNat ∧ b.fkern.Q = a.q.toNat ∧
      (∀ k < a.q.toNat, ∃ K, BenchKernel c.1 K ∧ b.fkern.kernels.getD k (.identity none) = K.setActiveDims (some [0])) ∧
      (∀ k < a.q.toNat, ∀ i < a.d.toNat, ∀ j < a.d.toNat, b.fkern.B k i j =
        (∑ s ∈ Finset.range a.rq.toNat, r.vecs k s i * r.vecs k s j) + if i = j then (r.gammaDiags k i)⁻¹ else 0) ∧
      (∀ i < a.d.toNat, b.fkern.noise.getD i 0 = (r.gammaNoise i)⁻¹) ∧
      b.Xs.length = a.d.toNat ∧ (∀ i < a.d.toNat, b.Xs.getD i ⟨0, 0, []⟩ = Arr2.of a.nO.toNat 1 fun j _ => r.xs i j) ∧
      b.Ys.length = a.d.toNat ∧ ∀ i < a.d.toNat, b.Ys.getD i [] = vmk a.nO.toNat (r.ys i) := by
  obtain ⟨b, h1, hb⟩ := bench_built hc hu
  refine ⟨b, h1, hb.testtype, hb.D, hb.Q, fun k hk => hb.kernel (by rw [hb.Q]; exact hk), fun k hk i hi j hj => ?_, fun i hi => ?_, ?_, fun i hi => ?_, ?_, fun i hi => ?_⟩
  · unfold FK.B
    rw [hb.vecs, vmk_getD_lt hk, hb.diags, vmk_getD_lt hk, vmk_getD_lt hi]
    congr 1
    refine Finset.sum_congr rfl fun s hs => ?_
    rw [Arr2.of_get (Finset.mem_range.1 hs) hi, Arr2.of_get (Finset.mem_range.1 hs) hj]
  · rw [hb.noise, vmk_getD_lt hi]
  · rw [hb.Xs, vmk_length]
  · rw [hb.Xs, vmk_getD_lt hi]
  · rw [hb.Ys, vmk_length]
  · rw [hb.Ys, vmk_getD_lt hi]

/-- C106, model: a model made from the data and the kernel of the benchmark, with grids of the default size, has the grid distances and the interpolation matrix
that the benchmark computes for itself. -/
theorem C106_model (hc : benchChecks a = .ok c) (hu : r.Usual a) (hb : benchMain a r = .ok b) (metrics : Bool) (prediction : String)
    (hp : prediction ∈ ["on-the-fly", "precompute", "exact"]) (nIt : ℕ) (tol : ℝ) :
    ∃ m, llgpInit (b.args metrics prediction nIt tol) = .ok m ∧ m.OK 1 ∧ m.fk.Sound ∧ m.fk = b.fkern ∧ m.gp.Xs = b.Xs ∧ m.gp.Ys = b.Ys ∧
      m.dists = [([0], b.gridDists)] ∧ m.interp = [([0], (b.W, b.WT))] := by
  obtain ⟨b', h1, h2⟩ := bench_built hc hu
  rw [hb] at h1
  cases h1
  obtain ⟨m, m1, m2, m3, m4⟩ := h2.model hc hu metrics hp nIt tol
  exact ⟨m, m1, m2, by rw [m3]; exact h2.sound hu (m3 ▸ m2.ready), m3, m4⟩

/-- C106, operators: all three representations that the benchmark solves with stand for the same matrix, the covariance of the observations of this model. -/
theorem C106_operators (hc : benchChecks a = .ok c) (hu : r.Usual a) (hb : benchMain a r = .ok b) (metrics : Bool) (prediction : String)
    (hp : prediction ∈ ["on-the-fly", "precompute", "exact"]) (nIt : ℕ) (tol : ℝ) (m : LLGP) (hm : llgpInit (b.args metrics prediction nIt tol) = .ok m) (kt : KType) :
    ∃ K, b.operator kt = .ok K ∧ SquareOp K m.n (m.fk.skiFull m.axesOf m.fk.extraOf m.gp.Xs) := by
  obtain ⟨m', m1, m2, -, m3, m4, m5, m6, m7⟩ := C106_model hc hu hb metrics prediction hp nIt tol
  rw [hm] at m1
  cases m1
  obtain ⟨b', h1, h2⟩ := bench_built hc hu
  rw [hb] at h1
  cases h1
  exact h2.operator hc m2 m3 m4 m6 m7 kt

theorem kernel_exact {fk : FK} {P : ℕ} (h : fk.Ready P) {Xs : List (Arr2 ℝ)} {Ys : List (List ℝ)} (hd : DataOK fk.D P Xs Ys) (hp : (fk.covMat Xs).PosDef) {l : ExactLMC}
    (hc : ExactContents fk Xs Ys l) : l.K.dotv l.deriv.alpha = Ys.flatten := by
  have hlen : Ys.flatten.length = (Xs.map Arr2.rows).sum := by rw [List.length_flatten, hd.lens]
  have hu : IsUnit (fk.covMat Xs).det := (Matrix.isUnit_iff_isUnit_det _).1 hp.isUnit
  refine list_ext_getD 0 ?_ fun i hi => ?_
  · rw [Arr2.dotv_length, hc.K, hlen]
    rfl
  · rw [Arr2.dotv_length, hc.K] at hi
    have hi : i < (Xs.map Arr2.rows).sum := hi
    have e : (fk.covMat Xs *ᵥ ((fk.covMat Xs)⁻¹ *ᵥ toVec _ Ys.flatten)) ⟨i, hi⟩ = Ys.flatten.getD i 0 := by
      rw [Matrix.mulVec_mulVec, Matrix.mul_nonsing_inv _ hu, Matrix.one_mulVec]
      rfl
    rw [← e, Arr2.dotv, hc.K]
    show (vmk (Xs.map Arr2.rows).sum _).getD i 0 = _
    rw [vmk_getD_lt hi]
    show ∑ j ∈ Finset.range (Xs.map Arr2.rows).sum, _ = ∑ j : Fin (Xs.map Arr2.rows).sum, _
    rw [Finset.sum_range]
    refine Finset.sum_congr rfl fun j _ => ?_
    rw [Arr2.of_get hi j.2, hc.alpha, vmk_getD_lt j.2, dif_pos j.2]
    rfl

/-- C106, test type `inv`: five lines. The first is the Cholesky factorization, whose solution is exact. The others are the residuals of `solve` with `minres` and the
three representations, and with `cg`, in the covariance of the model; `n_o d` equations. -/
theorem C106_inv (hc : benchChecks a = .ok c) (hu : r.Usual a) (hb : benchMain a r = .ok b) (sv : Solvers) (hs : sv.Fit) (m : LLGP)
    (hm : llgpInit (b.args false "on-the-fly" 10 1e-4) = .ok m) :
    ∃ L, b.inv sv = .ok L ∧ L.length = 5 ∧ m.n = a.nO.toNat * a.d.toNat ∧ L.getD 0 ⟨1, 1⟩ = ⟨0, 0⟩ ∧
      ∀ k kt minres, [(KType.sum, true), (.bt, true), (.slfm, true), (.slfm, false)][k]? = some (kt, minres) → ∃ K x logged, b.operator kt = .ok K ∧
        SquareOp K m.n (m.fk.skiFull m.axesOf m.fk.extraOf m.gp.Xs) ∧ iterativeSolve sv K b.Ys.flatten false minres 1e-4 = .ok (.plain x, logged) ∧
        (L.getD (k + 1) ⟨1, 1⟩).recon = resNorm m.n (m.fk.skiFull m.axesOf m.fk.extraOf m.gp.Xs) b.Ys.flatten x ∧
        iterativeSolve sv K b.Ys.flatten true minres 1e-4 = .ok (.verbose x (L.getD (k + 1) ⟨1, 1⟩).iterations (L.getD (k + 1) ⟨1, 1⟩).recon, logged) := by
  obtain ⟨m', m1, h, hS, m3, m4, m5, m6, m7⟩ := C106_model hc hu hb false "on-the-fly" (by simp) 10 1e-4
  rw [hm] at m1
  cases m1
  have hop := C106_operators hc hu hb false "on-the-fly" (by simp) 10 1e-4 m hm
  obtain ⟨l, l1, l2⟩ := (exactLMC_contents h.ready h.data).1 (sound_posDef h hS)
  have hy : b.Ys.flatten.length = m.n := by
    rw [← m5]
    exact y_length h
  have hsolve : ∀ kt minres, ∃ K x logged line, b.operator kt = .ok K ∧ SquareOp K m.n (m.fk.skiFull m.axesOf m.fk.extraOf m.gp.Xs) ∧
      iterativeSolve sv K b.Ys.flatten false minres 1e-4 = .ok (.plain x, logged) ∧ b.solve sv (kt, minres) = .ok line ∧
      line.recon = resNorm m.n (m.fk.skiFull m.axesOf m.fk.extraOf m.gp.Xs) b.Ys.flatten x ∧
      iterativeSolve sv K b.Ys.flatten true minres 1e-4 = .ok (.verbose x line.iterations line.recon, logged) := by
    intro kt minres
    obtain ⟨K, k1, k2⟩ := hop kt
    obtain ⟨x, ctr, error, logged, s1, s2, s3, -⟩ := C51_solve sv hs K m.n _ k2 b.Ys.flatten hy minres 1e-4
    refine ⟨K, x, logged, ⟨error, ctr⟩, k1, k2, s2, ?_, s3, s1⟩
    unfold BenchSetup.solve
    rw [k1, ok_bind]
    simp only
    rw [s1, ok_bind]
    rfl
  obtain ⟨K1, x1, g1, n1, p1⟩ := hsolve .sum true
  obtain ⟨K2, x2, g2, n2, p2⟩ := hsolve .bt true
  obtain ⟨K3, x3, g3, n3, p3⟩ := hsolve .slfm true
  obtain ⟨K4, x4, g4, n4, p4⟩ := hsolve .slfm false
  have hK : laNorm (vsub b.Ys.flatten (l.K.dotv l.deriv.alpha)) = 0 := by
    rw [kernel_exact h.ready h.data (sound_posDef h hS) l2, m5]
    unfold laNorm
    rw [map_vsub, List.zip_eq_zipWith, List.zipWith_self, List.map_map]
    simp [Function.comp_def]
  refine ⟨[⟨0, 0⟩, n1, n2, n3, n4], ?_, rfl, ?_, rfl, ?_⟩
  · unfold BenchSetup.inv
    rw [← m3, ← m4, ← m5, l1, ok_bind, m5]
    simp only
    rw [hK]
    unfold benchMethods
    simp only [mapExcept, p1.2.2.2.1, p2.2.2.2.1, p3.2.2.2.1, p4.2.2.2.1, ok_bind]
    rfl
  · obtain ⟨b', h1, h2⟩ := bench_built hc hu
    rw [hb] at h1
    cases h1
    unfold LLGP.n
    rw [m4, h2.Xs]
    show ((vmk a.d.toNat _).map Arr2.rows).sum = _
    unfold vmk
    rw [List.map_map, list_sum_range]
    show ∑ i ∈ Finset.range a.d.toNat, a.nO.toNat = _
    rw [Finset.sum_const, Finset.card_range, smul_eq_mul, mul_comm]
  · intro k kt minres hk
    match k, hk with
    | 0, hk => cases hk; exact ⟨K1, x1, g1, p1.1, p1.2.1, p1.2.2.1, p1.2.2.2.2.1, p1.2.2.2.2.2⟩
    | 1, hk => cases hk; exact ⟨K2, x2, g2, p2.1, p2.2.1, p2.2.2.1, p2.2.2.2.2.1, p2.2.2.2.2.2⟩
    | 2, hk => cases hk; exact ⟨K3, x3, g3, p3.1, p3.2.1, p3.2.2.1, p3.2.2.2.2.1, p3.2.2.2.2.2⟩
    | 3, hk => cases hk; exact ⟨K4, x4, g4, p4.1, p4.2.1, p4.2.2.1, p4.2.2.2.2.1, p4.2.2.2.2.2⟩
    | k + 4, hk => simp at hk

theorem sum_zip {u v : List ℝ} (h : u.length = v.length) (φ : ℝ × ℝ → ℝ) : ((u.zip v).map φ).sum = ∑ i ∈ Finset.range v.length, φ (u.getD i 0, v.getD i 0) := by
  rw [list_sum_eq_range _ _ (0, 0), List.length_zip, h, Nat.min_self]
  refine Finset.sum_congr rfl fun i hi => ?_
  have hi := Finset.mem_range.1 hi
  have hi' : i < u.length := by rw [h]; exact hi
  congr 1
  simp [hi, hi']

theorem vectorErrors_eq {u v : List ℝ} (h : u.length = v.length) : vectorErrors u v = relErrors u v := by
  unfold vectorErrors relErrors oneNorm laNorm
  rw [map_vsub, map_vsub, sum_zip h, sum_zip h, list_sum_eq_range v _ 0, list_sum_eq_range v _ 0]

theorem meanAbs_of {n : ℕ} (f g : ℕ → ℕ → ℝ) :
    meanAbs (vsub (Arr2.of n n f).data (Arr2.of n n g).data) = (∑ i ∈ Finset.range n, ∑ j ∈ Finset.range n, |f i j - g i j|) / (n * n) := by
  unfold meanAbs npMean
  rw [map_vsub, of_data, of_data, zip_flatMap _ _ _ fun i _ => by simp]
  congr 1
  · rw [sum_map_flatMap, list_sum_range]
    refine Finset.sum_congr rfl fun i _ => ?_
    rw [sum_zip (by simp)]
    simp only [vmk_length]
    refine Finset.sum_congr rfl fun j hj => ?_
    rw [vmk_getD_lt (Finset.mem_range.1 hj), vmk_getD_lt (Finset.mem_range.1 hj)]
  · simp [List.length_flatMap]

/-- C106, test type `opt`: what is printed compares the covariance, the solution and the gradient that a model made from the same data and kernel holds, for the same
random bits, with the exact covariance, the exact solution and the partial derivatives of the exact log likelihood. -/
theorem C106_opt (hc : benchChecks a = .ok c) (hu : r.Usual a) (hb : benchMain a r = .ok b) (sv : Solvers) (hs : sv.Fit) (pool : PoolArg) (hpool : pool.Works 11)
    (e : Env) (he : e.Calm) (metrics : Bool) (prediction : String) (hp : prediction ∈ ["on-the-fly", "precompute", "exact"]) (u : Bool) (w : World) :
    ∃ rep w' m k E A, b.opt sv pool e.z = .ok rep ∧ execOp u sv (.new (b.args metrics prediction 10 1e-4) e) w = (.ok (.model w.next), w') ∧
      w'.heap w.next = some m ∧ m.Current sv k ∧ m.grad = some A ∧ m.fk = b.fkern ∧ m.gp.Xs = b.Xs ∧ m.gp.Ys = b.Ys ∧ TrueGradient b.fkern b.Xs b.Ys E ∧
      rep.matrixDiff = (∑ i ∈ Finset.range m.n, ∑ j ∈ Finset.range m.n, |m.fk.skiFull m.axesOf m.fk.extraOf m.gp.Xs i j - m.fk.fullCov m.gp.Xs i j|) / (m.n * m.n) ∧
      rep.alphaErr = relErrors k.approx.alpha (vmk m.n fun i => if h : i < m.n then ((fnMatrix m.n m.n (m.fk.fullCov m.gp.Xs))⁻¹ *ᵥ toVec m.n b.Ys.flatten) ⟨i, h⟩ else 0) ∧
      rep.counts = [(b.fkern.kernels.map fun k => k.params.length).sum, a.q.toNat * a.rq.toNat, a.q.toNat * a.d.toNat, a.d.toNat] ∧
      rep.total = E.entries.length ∧
      rep.total = (b.fkern.kernels.map fun k => k.params.length).sum + a.q.toNat * a.rq.toNat * a.d.toNat + a.q.toNat * a.d.toNat + a.d.toNat ∧
      A.entries.length = E.entries.length ∧
      rep.avgErr = (∑ i ∈ Finset.range rep.total, |E.entries.getD i 0 - A.entries.getD i 0|) / rep.total ∧
      rep.avgGrad = (∑ i ∈ Finset.range rep.total, |E.entries.getD i 0|) / rep.total ∧ rep.gradErr = relErrors A.entries E.entries := by
  obtain ⟨b', hb1, hb2⟩ := bench_built hc hu
  rw [hb] at hb1
  cases hb1
  obtain ⟨m, m1, h, hS, m3, m4, m5, m6, m7⟩ := C106_model hc hu hb metrics prediction hp 10 1e-4
  obtain ⟨f1, f2, f3, f4, f5, -⟩ := init_fields m1
  have f4 : m.nIt = 10 := f4
  have f5 : m.tol = 1e-4 := f5
  have hlens : m.lens = m.gp.Xs.map Arr2.rows := h.data.lens
  have hPD := sound_posDef h hS
  have hQ : 0 < m.fk.Q := by
    rw [m3, hb2.Q]
    obtain ⟨-, -, -, -, hq, -⟩ := benchChecks_ok hc
    omega
  -- the model
  obtain ⟨w', hw'⟩ := update_completes hs he.1 he.2 h (by rw [f4]; omega) (fun _ => hPD) (i := w.next)
    (w := { w with heap := fun j => if j = w.next then some m else w.heap j, next := w.next + 1 }) (if_pos rfl) u
  obtain ⟨m', k, cc, g1, g2, g3, -⟩ := update_complete he.1 (w := { w with heap := fun j => if j = w.next then some m else w.heap j, next := w.next + 1 }) (if_pos rfl) hw'
  obtain ⟨m'', Kg, kd, grads, A, u1, u2, u3, u4, u5, u6⟩ := update_grad sv u e (w := { w with heap := fun j => if j = w.next then some m else w.heap j, next := w.next + 1 }) (if_pos rfl) hw'
  have hm' : w'.heap w.next = some m' := by
    rw [g1]
    exact if_pos rfl
  rw [hm'] at u1
  cases u1
  obtain ⟨p1, p2, p3, p4, p5, p6⟩ := core_parts g3
  obtain ⟨K, gks, q1, q2, q3, q4, -⟩ := genGridKernel_model h
  rw [q1] at u2
  cases u2
  have hK : SquareOp K m.n (m.fk.skiFull m.axesOf m.fk.extraOf m.gp.Xs) := ⟨q4, q2, q3⟩
  -- the approximate likelihood of the benchmark
  obtain ⟨la, met, l1, l2, ⟨lg, l3⟩, l4, l5⟩ := approxLMC_model hs h he.1 hK (pool := pool) (by rw [f4]; exact hpool)
  have l5 := l5 kd u3 grads u4
  -- the exact one
  obtain ⟨le, x1, x2⟩ := (exactLMC_contents h.ready h.data).1 hPD
  obtain ⟨fe, De, ho⟩ := exact_opsFor h.ready h.data.inputs x2
  -- the gradients
  obtain ⟨ks, d, x, a1, a2, a3, a4, a5, a6⟩ := approxFirst_ok hs he.1 h hK
  rw [a1] at u3
  cases u3
  obtain ⟨fs, hfs⟩ := exists_gradFns h
  obtain ⟨Dv, hDv⟩ := derivative_value a3 (by rw [a4, f4]; omega) a5 a6
  have hl : ApproxOf m fs la := by
    rw [l5]
    exact ⟨rfl, rfl, rfl, a2, u4⟩
  have ha := approx_opsFor h hfs hl (Dv := Dv) (by rw [l5]; exact hDv)
  have hA : A = gradOf m.fk (ownerOf (m.gp.Xs.map Arr2.rows)) m.skiAt fs Dv := by
    rw [← l5, ha.updateGradient h.ready] at u5
    exact (Except.ok.inj u5).symm
  have hrows : ∀ q < m.fk.Q, (m.fk.coregVecs.getD q ⟨0, 0, []⟩).rows = a.rq.toNat := by
    rw [m3]
    exact fun q hq => hb2.rows hq
  obtain ⟨fE, sE⟩ := gradOf_shape (own := ownerOf (m.gp.Xs.map Arr2.rows)) (kv := fun q f r s => m.fk.kAt m.gp.Xs f q r s) (fs := fe) (Dv := De) hrows ho.len
  obtain ⟨fA, sA⟩ := gradOf_shape (own := ownerOf (m.gp.Xs.map Arr2.rows)) (kv := m.skiAt) (fs := fs) (Dv := Dv) hrows ha.len
  have hE := exact_true h.ready h.data x1 ho
  rw [← hA] at sA
  have kA := kinds_of_ops h.ready ha
  rw [← hA] at kA
  have kE := kinds_of_ops h.ready ho
  generalize hEE : gradOf m.fk (ownerOf (m.gp.Xs.map Arr2.rows)) (fun q f r s => m.fk.kAt m.gp.Xs f q r s) fe De = E at sE hE kE
  obtain ⟨res, r1, r2, r3, r4, r5, r6, r7⟩ := check_all hQ sE sA
  have hn : m'.n = m.n := by unfold LLGP.n; rw [p1]
  have hax : m'.axesOf = m.axesOf := by unfold LLGP.axesOf; rw [p3]
  have hal : k.approx.alpha = la.deriv.alpha := by
    obtain ⟨lg', s1⟩ := g2.solved
    have s0 := g2.built
    have e1 : m'.dists = m.dists := by unfold LLGP.dists; rw [p3]
    have e2 : m'.interp = m.interp := by unfold LLGP.interp; rw [p3]
    have e3 : m'.lens = m.lens := by unfold LLGP.lens; rw [p1]
    have e4 : m'.y = m.y := by unfold LLGP.y; rw [p1]
    rw [p2, e1, e2, e3, q1] at s0
    cases s0
    rw [e4, p6, l3] at s1
    exact (SolveRet.plain.inj (Prod.mk.inj (Except.ok.inj s1)).1).symm
  have hlen : (m.fk.kernels.map fun k => k.params.length).sum = ((List.range m.fk.Q).map fun q => (m.fk.kernels.getD q (.identity none)).params.length).sum := by
    rw [list_sum_eq_range _ _ (Kern.identity none), list_sum_range]
    rfl
  have htot : E.entries.length = ((List.range m.fk.Q).map fun q => (m.fk.kernels.getD q (.identity none)).params.length).sum + m.fk.Q * a.rq.toNat * m.fk.D + m.fk.Q * m.fk.D + m.fk.D := by
    unfold FKGrad.entries
    rw [List.length_append, List.length_append, List.length_append, sE.noise, List.length_flatten, List.length_flatten, sE.kernels, sE.diags, sE.vecs, vecs_flat,
      (side_length _ _ _ _).2]
    unfold vmk
    rw [List.map_const', List.sum_replicate, List.length_range, smul_eq_mul]
    ring
  have hgl : (List.zipWith (· + ·) (res.flatMap fun r => r.2.1) (res.flatMap fun r => r.2.2)).length = (res.flatMap fun r => r.2.2).length := by
    rw [List.length_zipWith, r3, r4, Nat.min_self]
  have hvs : vsub (List.zipWith (· + ·) (res.flatMap fun r => r.2.1) (res.flatMap fun r => r.2.2)) (res.flatMap fun r => r.2.2) = res.flatMap fun r => r.2.1 := by
    refine list_ext_getD 0 (by rw [vsub_length hgl, hgl, r3, r4]) fun i hi => ?_
    rw [vsub_getD hgl]
    rw [vsub_length hgl] at hi
    have hi2 := hi
    rw [hgl] at hi2
    have hi3 : i < (res.flatMap fun r => r.2.1).length := by rw [r3, ← r4]; exact hi2
    rw [List.getD_eq_getElem _ _ hi, List.getD_eq_getElem _ _ hi2, List.getD_eq_getElem _ _ hi3, List.getElem_zipWith, add_sub_cancel_right]
  refine ⟨⟨meanAbs (vsub la.K.asNumpy.data le.K.data), vectorErrors la.deriv.alpha le.deriv.alpha, res.map fun r => r.1, (res.flatMap fun r => r.2.1).length,
      meanAbs (res.flatMap fun r => r.2.1), meanAbs (res.flatMap fun r => r.2.2),
      vectorErrors (List.zipWith (· + ·) (res.flatMap fun r => r.2.1) (res.flatMap fun r => r.2.2)) (res.flatMap fun r => r.2.2)⟩,
    w', m', k, E, A, ?_, ?_, hm', g2, u6, p2.trans m3, by rw [p1, m4], by rw [p1, m5], by rw [← m3, ← m4, ← m5]; exact hE, ?_, ?_, ?_, ?_, ?_, r5, ?_, ?_, ?_⟩
  · unfold BenchSetup.opt
    simp only
    rw [← m6, ← m7, ← m3, ← m4, ← m5, x1, ok_bind, ← hlens, q1, ok_bind]
    rw [f4, f5] at l1
    rw [l1, ok_bind]
    simp only
    rw [kE, kA]
    simp only [List.zip_cons_cons, List.zip_nil_right]
    rw [r1, ok_bind]
    rfl
  · unfold execOp
    simp only
    rw [py_bind, lift_run, m1]
    simp only
    rw [py_bind]
    unfold allocate
    simp only
    rw [py_bind, hw']
    rfl
  · simp only
    rw [l2, hK.rep.asNumpy, hK.rows, hK.cols, x2.K, hn, hax, p1, p2]
    exact meanAbs_of _ _
  · simp only
    rw [hal, vectorErrors_eq (by rw [l4, x2.alpha, vmk_length]; rfl), x2.alpha, hn, p1, p2, ← m5]
    rfl
  · simp only
    rw [r2, ← m3, hlen, ← hb2.Q, ← hb2.D, ← m3]
  · exact r3
  · simp only
    rw [r3, htot, ← m3, hlen, ← hb2.Q, ← hb2.D, ← m3]
  · simp only
    unfold meanAbs npMean
    rw [r6, List.length_map, r3, sum_zip r5.symm, r5]
  · simp only
    unfold meanAbs npMean
    rw [r7, List.length_map, r3, r4, list_sum_eq_range _ _ 0]
  · simp only
    unfold vectorErrors relErrors oneNorm laNorm
    rw [hvs, r6, r6, r7, r7, sum_zip r5.symm, sum_zip r5.symm, r5, list_sum_eq_range _ _ 0, list_sum_eq_range _ _ 0]
    congr 2
    · exact Finset.sum_congr rfl fun i _ => abs_sub_comm _ _
    · congr 1
      refine Finset.sum_congr rfl fun i _ => ?_
      ring

/-- C106, counts: the numbers of gradients printed with the average times add up to the number of partial derivatives only if there is one output: for the
coregionalization vectors the rows of the arrays are counted, `q r_q` instead of `q r_q d`. -/
theorem C106_counts (hc : benchChecks a = .ok c) (hu : r.Usual a) (hb : benchMain a r = .ok b) (sv : Solvers) (hs : sv.Fit) (pool : PoolArg) (hpool : pool.Works 11)
    (z : ℕ → ℕ → Bool) (rep : BenchReport) (hr : b.opt sv pool z = .ok rep) :
    rep.counts.getD 1 0 = a.q.toNat * a.rq.toNat ∧ (rep.counts.sum = rep.total ↔ a.d = 1) := by
  obtain ⟨rep', w', m, k, E, A, h1, -, -, -, -, -, -, -, -, -, -, h2, -, h3, -⟩ := C106_opt hc hu hb sv hs pool hpool ⟨z, fun _ => .none, false, none⟩
    ⟨(fun _ _ _ h => by cases h), rfl⟩ false "exact" (by simp) true ⟨fun _ => none, 0, Caches.empty⟩
  rw [show b.opt sv pool z = _ from h1] at hr
  cases hr
  obtain ⟨-, hd, hrq, -, hq, -⟩ := benchChecks_ok hc
  refine ⟨by rw [h2]; rfl, ?_⟩
  rw [h2, h3]
  simp only [List.sum_cons, List.sum_nil]
  constructor
  · intro h
    have h0 : 0 < a.q.toNat * a.rq.toNat := Nat.mul_pos (by omega) (by omega)
    have : a.q.toNat * a.rq.toNat * a.d.toNat = a.q.toNat * a.rq.toNat * 1 := by omega
    have := Nat.eq_of_mul_eq_mul_left h0 this
    omega
  · intro h
    rw [h]
    simp only [Int.toNat_one, mul_one]
    omega

/-- C106: with arguments that pass the checks the program runs to its end, and prints the lines of the test type asked for. -/
theorem C106_program (hc : benchChecks a = .ok c) (hu : r.Usual a) (sv : Solvers) (hs : sv.Fit) (pool : PoolArg) (hpool : pool.Works 11) (z : ℕ → ℕ → Bool) :
    ∃ b, benchMain a r = .ok b ∧ ((c.2.2 = "inv" ∧ ∃ L, b.inv sv = .ok L ∧ benchProgram a r sv pool z = .ok (.inl L)) ∨
      (c.2.2 = "opt" ∧ ∃ rep, b.opt sv pool z = .ok rep ∧ benchProgram a r sv pool z = .ok (.inr rep))) := by
  obtain ⟨b, hb, ht, -⟩ := C106_setup hc hu
  refine ⟨b, hb, ?_⟩
  obtain ⟨-, -, -, -, -, -, htt⟩ := benchChecks_ok hc
  simp only [List.mem_cons, List.not_mem_nil, or_false] at htt
  unfold benchProgram
  rw [hb, ok_bind, ht]
  rcases htt with h | h
  · obtain ⟨m, hm, -⟩ := C106_model hc hu hb false "on-the-fly" (by simp) 10 1e-4
    obtain ⟨L, hL, -⟩ := C106_inv hc hu hb sv hs m hm
    refine .inl ⟨h, L, hL, ?_⟩
    rw [if_pos h, hL]
    rfl
  · obtain ⟨rep', w', m, k, E, A, h1, -⟩ := C106_opt hc hu hb sv hs pool hpool ⟨z, fun _ => .none, false, none⟩
      ⟨(fun _ _ _ h => by cases h), rfl⟩ false "exact" (by simp) true ⟨fun _ => none, 0, Caches.empty⟩
    refine .inr ⟨h, rep', h1, ?_⟩
    rw [h, if_neg (by decide), show b.opt sv pool z = _ from h1]
    rfl

end

/-! ### A case: two outputs with eight inputs each, two kernels of different types -/

/-- `python3 bench.py 8 2 1 2 1 mix 1234 t` -/
noncomputable def smallBench (t : String) : BenchArgs := ⟨8, 2, 1, 2, 1, some "mix", some 1234, some t⟩

/-- draws: the inputs are `0, 1/20, …` -/
noncomputable def smallDraws : BenchDraws := ⟨fun k s i => (k + s + i : ℕ) / 4, fun k i => (k + i + 1 : ℕ), fun i => (i + 1 : ℕ), fun i j => (8 * i + j : ℕ) / 20, fun i j => (i + j : ℕ) / 10,
  fun _ _ _ => 0⟩

theorem smallBench_checks {t : String} (ht : t ∈ ["inv", "opt"]) : benchChecks (smallBench t) = .ok ("mix", 1234, t) := by
  unfold benchChecks smallBench
  simp only [Option.getD_some]
  rw [if_neg (by norm_num), if_neg (by norm_num), if_neg (by norm_num), if_neg (by norm_num), if_neg (by norm_num), if_neg (by norm_num), if_neg (by simp), if_neg (not_not.2 ht)]

theorem smallDraws_usual (t : String) : smallDraws.Usual (smallBench t) := by
  refine ⟨fun k _ i _ => ?_, fun i _ => ?_, ⟨0, by simp [smallBench], 0, by simp [smallBench], 1, by simp [smallBench], 7, by simp [smallBench], ?_⟩, fun i hi => ?_⟩
  · show (0 : ℝ) < ((k + i + 1 : ℕ) : ℝ)
    positivity
  · show (0 : ℝ) < ((i + 1 : ℕ) : ℝ)
    positivity
  · show ((8 * 0 + 0 : ℕ) : ℝ) / 20 < ((8 * 1 + 7 : ℕ) : ℝ) / 20
    norm_num
  · have hv : 0 < varOf (vmk 8 (smallDraws.ys i)) := by
      have : vmk 8 (smallDraws.ys i) = [((i + 0 : ℕ) : ℝ) / 10, ((i + 1 : ℕ) : ℝ) / 10, ((i + 2 : ℕ) : ℝ) / 10, ((i + 3 : ℕ) : ℝ) / 10, ((i + 4 : ℕ) : ℝ) / 10,
        ((i + 5 : ℕ) : ℝ) / 10, ((i + 6 : ℕ) : ℝ) / 10, ((i + 7 : ℕ) : ℝ) / 10] := rfl
      rw [this]
      unfold varOf meanOf
      simp only [List.length_cons, List.length_nil, Finset.sum_range_succ, Finset.sum_range_zero, List.getD_cons_succ, List.getD_cons_zero]
      push_cast
      ring_nf
      norm_num
    exact (Real.sqrt_pos.2 hv).ne'

example (sv : Solvers) (hs : sv.Fit) : ∃ b L, benchMain (smallBench "inv") smallDraws = .ok b ∧ b.inv sv = .ok L ∧ L.length = 5 ∧ L.getD 0 ⟨1, 1⟩ = ⟨0, 0⟩ := by
  obtain ⟨b, hb, -⟩ := C106_setup (smallBench_checks (t := "inv") (by simp)) (smallDraws_usual "inv")
  obtain ⟨m, hm, -⟩ := C106_model (smallBench_checks (t := "inv") (by simp)) (smallDraws_usual "inv") hb false "on-the-fly" (by simp) 10 1e-4
  obtain ⟨L, h1, h2, -, h3, -⟩ := C106_inv (smallBench_checks (t := "inv") (by simp)) (smallDraws_usual "inv") hb sv hs m hm
  exact ⟨b, L, hb, h1, h2, h3⟩

/-- The program prints 2 gradients of coregionalization vectors, where there are 4. -/
example (pool : PoolArg) (hp : pool.Works 11) (z : ℕ → ℕ → Bool) :
    ∃ rep, benchProgram (smallBench "opt") smallDraws exactSolvers pool z = .ok (.inr rep) ∧ rep.counts.getD 1 0 = 2 ∧ rep.counts.sum ≠ rep.total := by
  have hc := smallBench_checks (t := "opt") (by simp)
  have hu := smallDraws_usual "opt"
  obtain ⟨b, hb, (⟨h, -⟩ | ⟨-, rep, h1, h2⟩)⟩ := C106_program hc hu exactSolvers exactSolvers_fit pool hp z
  · exact absurd h (by decide)
  · obtain ⟨c1, c2⟩ := C106_counts hc hu hb exactSolvers exactSolvers_fit pool hp z rep h1
    exact ⟨rep, h2, c1, fun h => absurd (c2.1 h) (by decide)⟩

end Verif
