import Verif.Proofs.SkiPsd
import Verif.Props.LLGPPredict

/-! A model small enough to compare its predictions for different parameters: one output, two observations, one RBF kernel, and a grid of five points
one of which is the first input. -/

namespace Verif

open Matrix

/-- the constructor arguments -/
noncomputable def tinyArgs (fk : FK) : LLGPArgs :=
  ⟨[⟨[2], [0, 1]⟩], [⟨[2], [1, 0]⟩], false, .scalar (-1), .scalar 1, .scalar 1, false, "exact", 15, 1e-4, some fk⟩

/-- what is used of the model: `B` is the coregionalization of the single output, `m` has the noise `a` -/
structure Tiny (m : LLGP) (B a : ℝ) : Prop where
  ok : m.OK 1
  sound : m.fk.Sound
  mode : m.prediction = .exact
  xs : m.gp.Xs = [⟨2, 1, [0, 1]⟩]
  ys : m.gp.Ys = [[1, 0]]
  norm : m.gp.normalizer = none
  D : m.fk.D = 1
  group : m.fk.activeDims = [([0], [0])]
  axes : m.axesOf [0] = [linspace (-5) 5 5]
  kernels : m.fk.kernels = [.rbf 1 (some [0])]
  coreg : m.fk.B 0 0 0 = B
  pos : 0 < B
  noise : m.fk.noise = [a]

theorem tiny_dataset : Dataset [⟨[2], [0, 1]⟩] [⟨[2], [1, 0]⟩] 1 := by
  refine ⟨by simp, rfl, fun d hd => ?_, fun Y hY => .inr ?_⟩
  · have : d < 1 := hd
    interval_cases d
    exact ⟨2, rfl, .inl ⟨rfl, rfl⟩⟩
  · simp only [List.mem_singleton] at hY
    subst hY
    have : varOf [1, 0] = 1 / 4 := by
      simp [varOf, meanOf, Finset.sum_range_succ]
      norm_num
    simp [sdOf, this]

theorem exists_tinyFK : ∃ fk : FK, fk.kernels = [.rbf 1 none] ∧ fk.D = 1 ∧ fk.noise = [0.1] ∧ fk.coregDiags = [[1]] ∧ fk.B 0 0 0 = 1 ∧ fk.WF ∧ fk.Fresh := by
  have hdoc : (⟨some 1, some [.rbf 1 none], some [1], none, none, none⟩ : FKArgs).Documented :=
    ⟨⟨1, rfl, by norm_num⟩, by simp [given], rfl, by simp [given], .inl rfl⟩
  have hin : (⟨some 1, some [.rbf 1 none], some [1], none, none, none⟩ : FKArgs).InRange :=
    fun D hD => by cases hD; simp [given]
  obtain ⟨D, hD, h⟩ := (fkNew_given (fun q i j => i + j) _ (by simp) (by simp)).1 hdoc hin
  have hD2 : D = 1 := by simp at hD; omega
  subst hD2
  obtain ⟨hk, -, hQ, hw, hf⟩ := C29_contents _ _ _ (by simp) (by simp) h
  refine ⟨_, hk, rfl, ?_, ?_, ?_, hw, hf⟩
  · simp [vmk, List.range_succ]
  · simp [vmk, List.range_succ, given, FKArgs.idx, indexOrRange]
  · simp [FK.B, vmk, List.range_succ, given, FKArgs.idx, indexOrRange, initAq, Arr2.of, Arr2.get]

theorem init_grids {a : LLGPArgs} {m : LLGP} (h : llgpInit a = .ok m) : generateGrids m.fk m.gp.Xs a.lo a.hi a.m = .ok m.grids := by
  unfold llgpInit at h
  rw [bind_ok] at h
  obtain ⟨gp, h1, h⟩ := h
  cases hf : a.functionalKernel with
  | none => rw [hf] at h; cases h
  | some fk =>
    cases hp : predMode a.prediction with
    | none => rw [hf, hp] at h; cases h
    | some mode =>
      rw [hf, hp] at h
      simp only [bind_ok, pure_ok] at h
      obtain ⟨fk', -, grids, h2, rfl⟩ := h
      exact h2

theorem tiny_autogrid : autogrid [⟨2, 1, [0, 1]⟩] (.ndarray [-1]) (.ndarray [1]) (.ndarray [1]) = .ok ⟨[linspace (-5) 5 5], .ndarray [5]⟩ := by
  have f : ∀ x : ℝ, GridArg.fits 1 (.ndarray [x]) := fun x v hv => by cases hv; rfl
  have h1 : axisReduce min ⟨2, 1, [0, 1]⟩ = .ok [0] := by
    simp [axisReduce, vmk, List.range_succ, Arr2.col, Arr2.get]
  have h2 : axisReduce max ⟨2, 1, [0, 1]⟩ = .ok [1] := by
    simp [axisReduce, vmk, List.range_succ, Arr2.col, Arr2.get]
  have hf : pyInt 5 = 5 := by
    unfold pyInt
    exact_mod_cast Nat.floor_natCast (R := ℝ) 5
  unfold autogrid
  simp only
  rw [if_neg (not_not.2 (f _)), if_neg (not_not.2 (f _)), if_neg (not_not.2 (f _))]
  simp only [mapExcept, h1, h2, ok_bind, GridArg.vals, zip2, GridArg.afterUpdate]
  norm_num [hf]
  rfl

theorem tiny_from {fk : FK} (hk : fk.kernels = [.rbf 1 none]) (hD : fk.D = 1) (hn : fk.noise = [0.1]) (hκ : fk.coregDiags = [[1]]) (hB : fk.B 0 0 0 = 1) (hw : fk.WF) (hf : fk.Fresh) :
    ∃ m : LLGP, (tinyArgs fk).Documented 1 fk ∧ fk.setInputDim 1 = .ok m.fk ∧ llgpInit (tinyArgs fk) = .ok m ∧ Tiny m 1 0.1 := by
  have hone : ∀ k ∈ fk.kernels, k = .rbf 1 none := fun k h => by rw [hk] at h; exact List.mem_singleton.1 h
  have hdocd : (tinyArgs fk).Documented 1 fk := by
    refine ⟨tiny_dataset, ?_, ?_, ?_, rfl, hf, hw, ?_, hD, ?_, ?_, ?_, ?_, ?_, ?_, ?_, ?_⟩
    · intro X hX
      rw [List.mem_singleton.1 hX]; rfl
    · intro X hX
      rw [List.mem_singleton.1 hX]; rfl
    · intro X hX
      rw [List.mem_singleton.1 hX]; simp
    · simp [FK.Q, hk]
    · intro k hk'
      rw [hone k hk']; simp [Kern.Valid]
    · intro k hk'
      rw [hone k hk']; simp [dimsRead, Kern.activeDims]
    · simp [tinyArgs]
    · intro k hk'
      rw [hone k hk']; simp [dimsRead, Kern.activeDims]
    · intro k hk'
      rw [hone k hk']; simp [dimsRead, Kern.activeDims]
    · intro k hk'
      rw [hone k hk']; simp [dimsRead, Kern.activeDims]
    · intro c _ v hv
      cases hv
      exact ⟨1, by norm_num, by norm_num⟩
    · intro c hc
      have : c = 0 := by omega
      subst this
      exact ⟨⟨2, 1, [0, 1]⟩, by simp [padded, tinyArgs], 0, by norm_num, .inl ⟨⟨2, 1, [0, 1]⟩, by simp [padded, tinyArgs], 1, by norm_num, by norm_num [Arr2.get]⟩⟩
  obtain ⟨m, fk', h1, h2, h3, h4, h5⟩ := llgpInit_documented hdocd (by norm_num)
  obtain ⟨f1, -, -, -, -, f6⟩ := init_fields h1
  obtain ⟨norms, n1, n2⟩ := (C42_validation_partial (tinyArgs fk).Xs (tinyArgs fk).Ys (by simp [tinyArgs]) (by simp [tinyArgs]) (tinyArgs fk).normalize).2.2 1 tiny_dataset
  have hgp : m.gp = ⟨1, 1, none, [[1, 0]], [⟨2, 1, [0, 1]⟩]⟩ := by
    rw [n1] at f6
    rw [← Except.ok.inj f6, n2]
    simp [tinyArgs]
  obtain ⟨fk'', g1, g2⟩ := setInputDim_fresh fk 1 hf
  rw [h3] at g1
  cases g1
  have hker : m.fk.kernels = [.rbf 1 (some [0])] := by
    rw [h4]
    refine list_ext_getD (.identity none) (by rw [g2.klen, hk]; rfl) fun i hi => ?_
    rw [g2.klen, hk] at hi
    have hi : i < 1 := hi
    have : i = 0 := by omega
    subst this
    rw [g2.kern 0 (by rw [hk]; simp), hk]
    rfl
  have hgr : ∀ key, fk.groupOf 1 key = if key = [0] then [0] else [] := by
    intro key
    unfold FK.groupOf
    rw [hk]
    by_cases e : key = [0]
    · subst e
      rfl
    · rw [if_neg e]
      simp [List.range_succ, dimsRead, Kern.activeDims, Ne.symm e]
  have hgroup : m.fk.activeDims = [([0], [0])] := by
    have hmem : ([0], [0]) ∈ m.fk.activeDims := by
      rw [h4, g2.mem, hgr]
      simp
    have hall : ∀ g ∈ m.fk.activeDims, g = ([0], [0]) := by
      intro g hg
      rw [h4] at hg
      have := (g2.mem g.1 g.2).1 hg
      rw [hgr] at this
      by_cases e : g.1 = [0]
      · rw [if_pos e] at this
        exact Prod.ext e this.1
      · rw [if_neg e] at this
        exact absurd this.1 this.2
    have hnd := g2.nodup
    rw [← h4] at hnd
    cases hA : m.fk.activeDims with
    | nil => rw [hA] at hmem; simp at hmem
    | cons g l =>
      rw [hA] at hall hnd
      have hg := hall g (by simp)
      cases l with
      | nil => rw [hg]
      | cons g' l =>
        have hg' := hall g' (by simp)
        rw [hg, hg'] at hnd
        simp at hnd
  have hQ : m.fk.Q = 1 := by unfold FK.Q; rw [hker]; rfl
  have hDD : m.fk.D = 1 := by rw [h4, g2.same]; exact hD
  have hnoise : m.fk.noise = [0.1] := by rw [h4, g2.same]; exact hn
  have hdiag : m.fk.coregDiags = [[1]] := by rw [h4, g2.same]; exact hκ
  refine ⟨m, hdocd, by rw [h4]; exact h3, h1, ⟨h2, ⟨fun q hq => C36_kernels_psd m.fk 1 h2.ready q hq (.inl ?_), fun k hk => ?_, ?_, ?_⟩, ?_, by rw [hgp], by rw [hgp], by rw [hgp],
    hDD, hgroup, ?_, hker, ?_, by norm_num, hnoise⟩⟩
  · have : q = 0 := by omega
    subst this
    rw [hker]
    trivial
  · rw [hker] at hk
    rw [List.mem_singleton.1 hk]
    trivial
  · intro q hq a ha
    have hq : q = 0 := by omega
    have ha : a = 0 := by omega
    subst hq ha
    rw [hdiag]
    norm_num
  · intro a ha
    have ha : a = 0 := by omega
    subst ha
    rw [hnoise]
    norm_num
  · simpa [tinyArgs, predMode] using f1.symm
  · have hg := init_grids h1
    unfold generateGrids at hg
    rw [hgroup, hgp] at hg
    simp only [List.map_cons, List.map_nil, mapExcept, bind_ok, pure_ok] at hg
    obtain ⟨b, ⟨gg, e1, rfl⟩, bs, e0, e2⟩ := hg
    cases e0
    unfold generateGrid at e1
    have t1 : mapExcept (fun X => takeCols X [0]) [⟨2, 1, [0, 1]⟩] = .ok [⟨2, 1, [0, 1]⟩] := by
      have t0 : takeCols ⟨2, 1, [0, 1]⟩ [0] = .ok ⟨2, 1, [0, 1]⟩ := by
        simp [takeCols, Arr2.of, Arr2.get, vmk, List.range_succ]
      simp only [mapExcept, t0, ok_bind]
      rfl
    rw [t1] at e1
    simp only [tinyArgs, wrapOpt, List.length_singleton, if_true, ok_bind, tiny_autogrid, bind_ok, pure_ok] at e1
    obtain ⟨ds, -, W, -, rfl⟩ := e1
    unfold LLGP.axesOf
    rw [← e2]
    rfl
  · rw [h4, g2.same]; exact hB

theorem exists_tiny : ∃ (fk : FK) (m : LLGP), (tinyArgs fk).Documented 1 fk ∧ fk.setInputDim 1 = .ok m.fk ∧ llgpInit (tinyArgs fk) = .ok m ∧ Tiny m 1 0.1 := by
  obtain ⟨fk, hk, hD, hn, hκ, hB, hw, hf⟩ := exists_tinyFK
  exact ⟨fk, tiny_from hk hD hn hκ hB hw hf⟩

/-- the covariance of the first observation with itself, without noise -/
theorem tiny_corner {m : LLGP} {B a : ℝ} (h : Tiny m B a) (x : ℕ → ℝ) (hx : x 0 = 0) : m.fk.skiCov m.axesOf m.fk.extraOf 0 0 x x = B + m.fk.extraOf ([0], [0]) := by
  have hsz : gridSize (m.axesOf [0]) = 5 := by rw [h.axes]; simp [gridSize, linspace, vmk_length]
  obtain ⟨gg, d1, d2, d3, d4⟩ := h.ok.mem_grids (g := ([0], [0])) (by rw [h.group]; simp)
  have hw : ∀ q < gridSize (m.axesOf [0]), gridWeight (m.axesOf [0]) (coords [0] x) q = if q = 2 then 1 else 0 := fun q hq =>
    gridWeight_gridpoint _ (by rw [d4]; exact fun a ha => ⟨d3.size a ha, d3.spacing a ha⟩) (p := 2) (by rw [hsz]; norm_num) (fun c hc => by
      rw [h.axes] at hc ⊢
      have : c = 0 := by simpa using hc
      subst this
      show x 0 = _
      rw [hx]
      simp [gridPoint, gridSize, linspace, vmk, List.range_succ]
      norm_num) hq
  unfold FK.skiCov
  rw [h.group]
  simp only [List.map_cons, List.map_nil, List.sum_cons, List.sum_nil, add_zero]
  rw [Finset.sum_eq_single_of_mem 2 (Finset.mem_range.2 (by rw [hsz]; norm_num)), Finset.sum_eq_single_of_mem 2 (Finset.mem_range.2 (by rw [hsz]; norm_num)), hw 2 (by rw [hsz]; norm_num)]
  · rw [if_pos rfl, if_pos ⟨trivial, rfl⟩]
    unfold FK.gridCov
    rw [h.kernels]
    simp only [List.map_cons, List.map_nil, List.sum_cons, List.sum_nil, add_zero]
    rw [h.coreg]
    have : gridDistance (m.axesOf [0]) 2 2 = 0 := by simp [gridDistance, euclid]
    rw [this]
    simp [Kern.doc]
  · intro q hq hne
    rw [hw q (Finset.mem_range.1 hq), if_neg hne, mul_zero]
  · intro p hp hne
    refine Finset.sum_eq_zero fun q _ => ?_
    rw [hw p (Finset.mem_range.1 hp), if_neg hne, zero_mul, zero_mul]

theorem tiny_algebra {a b s00 s01 s10 s11 p q p' q' : ℝ} (ha : 0 < a) (hb : 0 < b) (hab : a ≠ b) (hs : 0 < s00) (q1 : (s00 + a) * p + s01 * q = 1)
    (q2 : s10 * p + (s11 + a) * q = 0) (q3 : (s00 + b) * p' + s01 * q' = 1) (q4 : s10 * p' + (s11 + b) * q' = 0)
    (q5 : s00 * p + s01 * q = s00 * p' + s01 * q') (q6 : s10 * p + s11 * q = s10 * p' + s11 * q') : False := by
  have k1 : a * p = b * p' := by linarith
  have k2 : a * q = b * q' := by linarith
  have t : (b - a) * (s00 * p + s01 * q) = 0 := by
    have e : b * (s00 * p + s01 * q) = s00 * (b * p') + s01 * (b * q') := by rw [q5]; ring
    rw [← k1, ← k2] at e
    linear_combination e
  have u : (b - a) * (s10 * p + s11 * q) = 0 := by
    have e : b * (s10 * p + s11 * q) = s10 * (b * p') + s11 * (b * q') := by rw [q6]; ring
    rw [← k1, ← k2] at e
    linear_combination e
  have hne : b - a ≠ 0 := sub_ne_zero.2 (Ne.symm hab)
  have t := (mul_eq_zero.1 t).resolve_left hne
  have u := (mul_eq_zero.1 u).resolve_left hne
  have hq : q = 0 := (mul_eq_zero.1 (show a * q = 0 by linarith)).resolve_left ha.ne'
  rw [hq] at t q1
  have hp : p = 0 := (mul_eq_zero.1 (show s00 * p = 0 by linarith)).resolve_left hs.ne'
  rw [hp] at q1
  norm_num at q1

/-- two such models with different noise -/
theorem tiny_means {m m' : LLGP} {B a b : ℝ} (h : Tiny m B a) (h' : Tiny m' B b) (hab : a ≠ b)
    (hS : ∀ x z, m'.fk.skiCov m'.axesOf m'.fk.extraOf 0 0 x z = m.fk.skiCov m.axesOf m.fk.extraOf 0 0 x z) :
    ∃ i < 2, m.fk.skiMean m.axesOf m.fk.extraOf m.gp.Xs m.gp.Ys 0 (queryPoint 1 [⟨[2], [0, 1]⟩] 0 i) ≠
      m'.fk.skiMean m'.axesOf m'.fk.extraOf m'.gp.Xs m'.gp.Ys 0 (queryPoint 1 [⟨[2], [0, 1]⟩] 0 i) := by
  by_contra hc
  push Not at hc
  have ha : 0 < a := by have := h.sound.noise 0 (by rw [h.D]; norm_num); rw [h.noise] at this; exact this
  have hb : 0 < b := by have := h'.sound.noise 0 (by rw [h'.D]; norm_num); rw [h'.noise] at this; exact this
  have hp := h.ok.ski_posDef h.sound (by rw [h.group]; simp)
  have hp' := h'.ok.ski_posDef h'.sound (by rw [h'.group]; simp)
  unfold FK.skiMean at hc
  rw [h.xs, h.ys] at hc
  rw [h'.xs, h'.ys] at hc
  rw [h.xs] at hp
  rw [h'.xs] at hp'
  set S := m.fk.skiCov m.axesOf m.fk.extraOf 0 0 with hSd
  set S' := m'.fk.skiCov m'.axesOf m'.fk.extraOf 0 0 with hSd'
  have hSS : S' = S := funext fun x => funext fun z => hS x z
  set X : List (Arr2 ℝ) := [⟨2, 1, [0, 1]⟩] with hX
  have hown : ∀ i < 2, ownerOf (X.map Arr2.rows) i = 0 := fun i hi => by
    simp [hX, ownerOf, hi]
  have hrow : ∀ i < 2, rowPoint X i = queryPoint 1 [⟨[2], [0, 1]⟩] 0 i := by
    intro i hi
    funext c
    unfold rowPoint innerIdx
    rw [hown i hi]
    simp [hX, pointOf, Arr2.get, offset, queryPoint]
  set x : ℕ → ℕ → ℝ := fun i => queryPoint 1 [⟨[2], [0, 1]⟩] 0 i with hx
  have hfull : ∀ i < 2, ∀ j < 2, m.fk.skiFull m.axesOf m.fk.extraOf X i j = S (x i) (x j) + if i = j then a else 0 := by
    intro i hi j hj
    unfold FK.skiFull
    simp only
    rw [hown i hi, hown j hj, hrow i hi, hrow j hj, h.noise]
    rfl
  have hfull' : ∀ i < 2, ∀ j < 2, m'.fk.skiFull m'.axesOf m'.fk.extraOf X i j = S (x i) (x j) + if i = j then b else 0 := by
    intro i hi j hj
    unfold FK.skiFull
    simp only
    rw [hown i hi, hown j hj, hrow i hi, hrow j hj, h'.noise, ← hSS]
    rfl
  have hcross : ∀ i, ∀ j : Fin 2, m.fk.skiCross m.axesOf m.fk.extraOf X 0 (x i) j = S (x i) (x j) := by
    intro i j
    unfold FK.skiCross
    rw [hown j j.2, hrow j j.2]
  have hcross' : ∀ i, ∀ j : Fin 2, m'.fk.skiCross m'.axesOf m'.fk.extraOf X 0 (x i) j = S (x i) (x j) := by
    intro i j
    unfold FK.skiCross
    rw [hown j j.2, hrow j j.2, ← hSS]
  have solve : ∀ {A : Matrix (Fin (X.map Arr2.rows).sum) (Fin (X.map Arr2.rows).sum) ℝ}, A.PosDef → ∀ y, A *ᵥ (A⁻¹ *ᵥ y) = y := by
    intro A hA y
    rw [Matrix.mulVec_mulVec, Matrix.mul_nonsing_inv _ ((Matrix.isUnit_iff_isUnit_det _).1 hA.isUnit), Matrix.one_mulVec]
  have e1 := solve hp (toVec (X.map Arr2.rows).sum [[1, 0]].flatten)
  have e2 := solve hp' (toVec (X.map Arr2.rows).sum [[1, 0]].flatten)
  generalize (m.fk.skiMat m.axesOf m.fk.extraOf X)⁻¹ *ᵥ toVec (X.map Arr2.rows).sum [[1, 0]].flatten = α at e1 hc
  generalize (m'.fk.skiMat m'.axesOf m'.fk.extraOf X)⁻¹ *ᵥ toVec (X.map Arr2.rows).sum [[1, 0]].flatten = α' at e2 hc
  have r1 : ∀ i : Fin 2, ∑ j : Fin 2, m.fk.skiFull m.axesOf m.fk.extraOf X i j * α j = [1, 0].getD i 0 := fun i => congrFun e1 i
  have r2 : ∀ i : Fin 2, ∑ j : Fin 2, m'.fk.skiFull m'.axesOf m'.fk.extraOf X i j * α' j = [1, 0].getD i 0 := fun i => congrFun e2 i
  have r3 : ∀ i < 2, ∑ j : Fin 2, m.fk.skiCross m.axesOf m.fk.extraOf X 0 (x i) j * α j = ∑ j : Fin 2, m'.fk.skiCross m'.axesOf m'.fk.extraOf X 0 (x i) j * α' j := fun i hi => hc i hi
  have hcor := tiny_corner h (x 0) rfl
  have hex : 0 ≤ m.fk.extraOf ([0], [0]) := extraOf_nonneg _ _
  have hpos := h.pos
  have q1 := r1 0
  have q2 := r1 1
  have q3 := r2 0
  have q4 := r2 1
  have q5 := r3 0 (by norm_num)
  have q6 := r3 1 (by norm_num)
  simp only [Fin.sum_univ_two, hcross, hcross'] at q5 q6
  simp only [Fin.sum_univ_two] at q1 q2 q3 q4
  rw [hfull _ (by norm_num) _ (by norm_num), hfull _ (by norm_num) _ (by norm_num)] at q1 q2
  rw [hfull' _ (by norm_num) _ (by norm_num), hfull' _ (by norm_num) _ (by norm_num)] at q3 q4
  simp at q1 q2 q3 q4 q5 q6
  have c00 : S (x 0) (x 0) = B + m.fk.extraOf ([0], [0]) := hcor
  have hs : 0 < S (x 0) (x 0) := by rw [c00]; linarith
  exact tiny_algebra ha hb hab hs q1 q2 q3 q4 q5 q6

end Verif
