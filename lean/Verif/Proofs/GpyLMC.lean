import Verif.Spec.GpyLMC
import Verif.Props.Gpy
import Verif.Props.Likelihood
import Verif.Proofs.LLGPRaw
import Verif.Proofs.SkiGrids

/-! Lemmas for C101. -/

namespace Verif

/-- what an object constructed from a dataset holds -/
structure GPyLMC.Holds (o : GPyLMC) (Xs Ys : List (NDArr ℝ)) (P : ℕ) : Prop where
  inputDim : o.gp.inputDim = P
  count : o.rows.rows = ((padded P Xs).map Arr2.rows).sum
  row : ∀ r < ((padded P Xs).map Arr2.rows).sum,
    o.rows.row r = vmk P (rowPoint (padded P Xs) r) ++ [((ownerOf ((padded P Xs).map Arr2.rows) r : ℕ) : ℝ)]
  index : ∀ r < ((padded P Xs).map Arr2.rows).sum, o.index.getD r 0 = ownerOf ((padded P Xs).map Arr2.rows) r
  y : o.y = (Ys.map NDArr.data).flatten

theorem constructGpy_terms {kernels : List Kern} {ranks : List ℕ} {terms : List (GpyKern × ℕ)} (h : constructGpy kernels ranks = .ok terms) :
    ∀ t ∈ terms, t.2 ∈ ranks ∧ ∃ k ∈ kernels, k.toGpy = .ok t.1 := by
  unfold constructGpy at h
  obtain ⟨ks, h1, h2⟩ := bind_ok.1 h
  have hk : ∀ g ∈ ks, ∃ k ∈ kernels, k.toGpy = .ok g := mapExcept_mem h1
  cases ks with
  | nil => cases h2
  | cons k ks =>
    cases ranks with
    | nil => cases h2
    | cons r rs =>
      rw [← (pure_ok.1 h2)]
      intro t ht
      rcases List.mem_cons.1 ht with rfl | ht
      · exact ⟨List.mem_cons_self .., hk _ (List.mem_cons_self ..)⟩
      · exact ⟨List.mem_cons_of_mem _ (List.of_mem_zip ht).2, hk _ (List.mem_cons_of_mem _ (List.of_mem_zip ht).1)⟩

theorem new_holds {st : GpyStart} {Xs Ys : List (NDArr ℝ)} {P : ℕ} {kernels : List Kern} {ranks : List ℕ} {o : GPyLMC} (hD : Dataset Xs Ys P)
    (hw : ∀ X ∈ Xs, X.WF) (h : gpyLMCNew st Xs Ys kernels ranks = .ok o) : o.Holds Xs Ys P := by
  unfold gpyLMCNew at h
  obtain ⟨gp, h1, h⟩ := bind_ok.1 h
  obtain ⟨ts, h2, h⟩ := bind_ok.1 h
  obtain ⟨X, h3, h⟩ := bind_ok.1 h
  obtain ⟨R, h4, h⟩ := bind_ok.1 h
  rw [← pure_ok.1 h]
  obtain ⟨norms, g1, -⟩ := (C42_validation_partial Xs Ys (fun X hX => by
    obtain ⟨n, ⟨e, -⟩ | e⟩ := hD.points X hX <;> simp [e]) (fun Y hY => by
    obtain ⟨i, hi, rfl⟩ := mem_getD hY ⟨[], []⟩
    obtain ⟨n, e, -⟩ := hD.shape i (by rw [hD.len]; exact hi)
    rw [e]
    exact List.cons_ne_nil _ _) false).2.2 _ hD
  rw [h1] at g1
  injection g1 with g1
  have gx : gp.Xs = padded P Xs := by rw [g1]; rfl
  rw [gx] at h3 h4
  obtain ⟨X', R', s1, s2, s3, s4, s5, s6, s7, s8⟩ := gpy_setup hD.nonempty hD.points hw
  rw [h3] at s2
  injection s2 with s2
  subst s2
  rw [h4] at s3
  injection s3 with s3
  subst s3
  have key : ∀ r < ((padded P Xs).map Arr2.rows).sum, ∃ d < Xs.length, ∃ i < (queryLens Xs).getD d 0, r = offset (queryLens Xs) d + i ∧
      ownerOf ((padded P Xs).map Arr2.rows) r = d ∧ innerIdx ((padded P Xs).map Arr2.rows) r = i := by
    intro r hr
    obtain ⟨k1, k2⟩ := offset_owner (lens := (padded P Xs).map Arr2.rows) hr
    have := ownerOf_lt _ r hr
    refine ⟨_, ?_, _, ?_, ?_, rfl, rfl⟩
    · simpa [padded] using this
    · rw [← padded_lens P]; exact k2
    · rw [← padded_lens P]; exact k1.symm
  refine ⟨by rw [g1], by rw [s5, padded_lens], fun r hr => ?_, fun r hr => ?_, by rw [g1]; rfl⟩
  · obtain ⟨d, hd, i, hi, e1, e2, e3⟩ := key r hr
    rw [e1, (s8 d hd i hi).1, ← e1, e2]
    unfold queryRow rowPoint
    rw [e2, e3, pointOf_padded hd]
  · obtain ⟨d, hd, i, hi, e1, e2, e3⟩ := key r hr
    simp only [gx]
    rw [e2, e1]
    exact (s8 d hd i hi).2

theorem from_holds {Xs Ys : List (NDArr ℝ)} {P : ℕ} {kernels : List Kern} {ranks : List ℕ} {o : GPyLMC} (hD : Dataset Xs Ys P)
    (hw : ∀ X ∈ Xs, X.WF) (h : o.From Xs Ys kernels ranks) : o.Holds Xs Ys P := by
  obtain ⟨st, o₀, h0, e1, e2, e3, e4, -, -⟩ := h
  have := new_holds hD hw h0
  exact ⟨by rw [e1]; exact this.inputDim, by rw [e2]; exact this.count, by rw [e2]; exact this.row, by rw [e3]; exact this.index, by rw [e4]; exact this.y⟩

theorem tunes_dims {k k' : GpyKern} (h : k.Tunes k') : k'.columns = k.columns := by cases h <;> rfl

theorem toGpy_columns {k : Kern} {g : GpyKern} (h : k.toGpy = .ok g) : g.columns = k.activeDims.getD [0] := by
  have ho : ∀ {ad : Option (List ℕ)} {k : GpyKern}, gpyOneDim ad k = .ok g → g = k := by
    intro ad k hk
    cases ad with
    | none => cases hk; rfl
    | some l =>
      unfold gpyOneDim at hk
      by_cases hl : l.length = 1
      · simp only [if_pos hl, Except.ok.injEq] at hk
        exact hk.symm
      · simp only [if_neg hl] at hk
        cases hk
  cases k with
  | rbf _ _ => rw [ho h]; rfl
  | matern32 _ _ => rw [ho h]; rfl
  | stdPeriodic _ _ _ => rw [ho h]; rfl
  | identity _ => cases h
  | scaled _ _ _ => cases h

def GpyKern.variance : GpyKern → ℝ
  | .rbf v _ _ => v
  | .matern32 v _ _ => v
  | .stdPeriodic v _ _ _ => v

theorem tunes_variance {k k' : GpyKern} (h : k.Tunes k') : k'.variance = k.variance := by cases h <;> rfl

theorem toGpy_variance {k : Kern} {g : GpyKern} (h : k.toGpy = .ok g) : g.variance = 1 := by
  have ho : ∀ {ad : Option (List ℕ)} {k : GpyKern}, gpyOneDim ad k = .ok g → g = k := by
    intro ad k hk
    cases ad with
    | none => cases hk; rfl
    | some l =>
      unfold gpyOneDim at hk
      by_cases hl : l.length = 1
      · simp only [if_pos hl, Except.ok.injEq] at hk
        exact hk.symm
      · simp only [if_neg hl] at hk
        cases hk
  cases k with
  | rbf _ _ => rw [ho h]; rfl
  | matern32 _ _ => rw [ho h]; rfl
  | stdPeriodic _ _ _ => rw [ho h]; rfl
  | identity _ => cases h
  | scaled _ _ _ => cases h

theorem toGpy_oneDim {k : Kern} {g : GpyKern} (h : k.toGpy = .ok g) : k.OneDim := by
  rcases C68_raises k with ⟨-, h1⟩ | ⟨-, h1⟩ | ⟨-, h1⟩
  · exact h1
  · rw [h] at h1; cases h1
  · rw [h] at h1; cases h1

/-- what the terms of an object have in common with the constructor's arguments -/
structure GpyTerm.Of (t : GpyTerm) (D : ℕ) (kernels : List Kern) (ranks : List ℕ) : Prop where
  rows : t.W.rows = D
  cols : t.W.cols ∈ ranks
  kappa : t.kappa.length = D
  variance : t.kern.variance = 1
  column : ∃ k ∈ kernels, t.kern.columns = k.activeDims.getD [0] ∧ ∃ c, t.kern.columns = [c]

theorem from_terms {Xs Ys : List (NDArr ℝ)} {kernels : List Kern} {ranks : List ℕ} {o : GPyLMC} (h : o.From Xs Ys kernels ranks) :
    o.noise.length = Ys.length ∧ ∀ t ∈ o.terms, t.Of Ys.length kernels ranks := by
  obtain ⟨st, o₀, h0, -, -, -, -, hn, hf⟩ := h
  unfold gpyLMCNew at h0
  obtain ⟨gp, h1, h0⟩ := bind_ok.1 h0
  obtain ⟨ts, h2, h0⟩ := bind_ok.1 h0
  obtain ⟨X, h3, h0⟩ := bind_ok.1 h0
  obtain ⟨R, h4, h0⟩ := bind_ok.1 h0
  rw [← pure_ok.1 h0] at hf hn
  refine ⟨by simpa using hn, fun t ht => ?_⟩
  obtain ⟨i, hi, rfl⟩ := List.getElem_of_mem ht
  have hl := hf.length_eq
  have hi' : i < ts.length := by
    simp only [List.length_mapIdx] at hl
    omega
  have := (List.forall₂_iff_get.1 hf).2 i (by simpa using hi') hi
  simp only [List.get_eq_getElem, List.getElem_mapIdx] at this
  obtain ⟨hr, k, hk, e⟩ := constructGpy_terms h2 _ (List.getElem_mem hi')
  refine ⟨this.shape.1, this.shape.2.1 ▸ hr, by rw [this.shape.2.2]; simp, by rw [tunes_variance this.kern, toGpy_variance e], k, hk, ?_, ?_⟩
  · rw [tunes_dims this.kern, toGpy_columns e]
  · rw [tunes_dims this.kern, toGpy_columns e]
    rcases toGpy_oneDim e with h | ⟨c, h⟩
    · exact ⟨0, by rw [h]; rfl⟩
    · exact ⟨c, by rw [h]; rfl⟩

theorem gpyModel_pointwise (ppf : ℝ → ℝ) (o : GPyLMC) (P : ℕ) (h : (fnMatrix o.rows.rows o.rows.rows o.Ky).PosDef) :
    (o.gpyModel ppf).Pointwise P (fun x _ => o.mean x) o.var (fun q x d => o.mean x + ppf (q / 100) * Real.sqrt (o.var x d)) := by
  refine ⟨fun X mt _ _ _ => ?_, fun X qs mt _ _ _ => ?_⟩
  · exact if_pos h
  · exact if_pos h

theorem mean_at (o : GPyLMC) (x : List ℝ) : ∀ n, o.rows.rows = n →
    o.mean x = (fun s : Fin n => o.cov x (o.rows.row s)) ⬝ᵥ (fnMatrix n n o.Ky)⁻¹.mulVec (toVec n o.y) := by
  rintro n rfl
  rfl

theorem var_at (o : GPyLMC) (x : List ℝ) (d : ℕ) : ∀ n, o.rows.rows = n →
    o.var x d = max (o.cov x x - (fun s : Fin n => o.cov x (o.rows.row s)) ⬝ᵥ (fnMatrix n n o.Ky)⁻¹.mulVec (fun s : Fin n => o.cov x (o.rows.row s))) gpyMinVar +
      o.noise.getD d 0 := by
  rintro n rfl
  rfl

/-! ### positive definiteness -/

/-- the kernel of the library with the same function -/
noncomputable def GpyKern.back : GpyKern → Kern
  | .rbf _ l _ => .rbf (l ^ 2)⁻¹ (some [0])
  | .matern32 _ l _ => .matern32 (1 / l) (some [0])
  | .stdPeriodic _ l T _ => .stdPeriodic (l ^ 2)⁻¹ T (some [0])

theorem back_spec {k : GpyKern} (h : k.Positive) (hv : k.variance = 1) : k.back.Valid ∧ k.back.noIdentity ∧ k.back.activeDims = some [0] ∧
    ∀ r, k.back.doc r = k.formula r := by
  cases k with
  | rbf v l ad =>
    subst hv
    refine ⟨inv_pos.2 (pow_pos h 2), trivial, rfl, fun r => ?_⟩
    simp only [GpyKern.back, Kern.doc, GpyKern.formula, GpyKern.variance, one_mul]
    congr 1; field_simp
  | matern32 v l ad =>
    subst hv
    refine ⟨one_div_pos.2 h, trivial, rfl, fun r => ?_⟩
    simp only [GpyKern.back, Kern.doc, GpyKern.formula, GpyKern.variance, one_mul]
    congr 1
    · ring
    · congr 1; ring
  | stdPeriodic v l T ad =>
    subst hv
    refine ⟨⟨inv_pos.2 (pow_pos h.1 2), h.2⟩, trivial, rfl, fun r => ?_⟩
    simp only [GpyKern.back, Kern.doc, GpyKern.formula, GpyKern.variance, one_mul]
    congr 1; field_simp

theorem gram_psd {n M : ℕ} (u : Fin n → Fin M → ℝ) : (Matrix.of fun i j => ∑ r, u i r * u j r).PosSemidef := by
  have := Matrix.posSemidef_self_mul_conjTranspose (Matrix.of u)
  have e : (Matrix.of u) * (Matrix.of u).conjTranspose = Matrix.of fun i j => ∑ r, u i r * u j r := by
    ext i j
    simp [Matrix.mul_apply]
  exact e ▸ this

theorem termB_psd {t : GpyTerm} (h : ∀ v ∈ t.kappa, 0 ≤ v) {n : ℕ} (f : Fin n → ℕ) : (Matrix.of fun i j => t.B (f i) (f j)).PosSemidef := by
  have hκ : ∀ a, 0 ≤ t.kappa.getD a 0 := fun a => by
    by_cases ha : a < t.kappa.length
    · rw [List.getD_eq_getElem _ _ ha]; exact h _ (List.getElem_mem ha)
    · rw [List.getD_eq_default _ _ (by omega)]
  have e : (Matrix.of fun i j => t.B (f i) (f j)) = (Matrix.of fun i j => ∑ r : Fin t.W.cols, t.W.get (f i) r * t.W.get (f j) r) +
      Matrix.of fun i j => ∑ m : Fin (∑ k, f k + 1), (if f i = m then Real.sqrt (t.kappa.getD m 0) else 0) * (if f j = m then Real.sqrt (t.kappa.getD m 0) else 0) := by
    ext i j
    rw [Matrix.add_apply]
    simp only [Matrix.of_apply]
    unfold GpyTerm.B
    rw [Finset.sum_range]
    congr 1
    have hi : f i < ∑ k, f k + 1 := Nat.lt_succ_of_le (Finset.single_le_sum (f := f) (fun _ _ => Nat.zero_le _) (Finset.mem_univ i))
    rw [Finset.sum_eq_single (⟨f i, hi⟩ : Fin (∑ k, f k + 1))]
    · simp only [if_true]
      by_cases hij : f i = f j
      · rw [if_pos hij, if_pos hij.symm, Real.mul_self_sqrt (hκ _)]
      · rw [if_neg hij, if_neg (fun e => hij e.symm), mul_zero]
    · intro m _ hm
      rw [if_neg (fun e => hm (Fin.ext e.symm)), zero_mul]
    · intro hn
      exact absurd (Finset.mem_univ _) hn
  rw [e]
  exact (gram_psd fun i (r : Fin t.W.cols) => t.W.get (f i) r).add (gram_psd fun i (m : Fin (∑ k, f k + 1)) => if f i = m then Real.sqrt (t.kappa.getD m 0) else 0)

theorem term_psd {t : GpyTerm} {D : ℕ} {kernels : List Kern} {ranks : List ℕ} (ht : t.Of D kernels ranks) (hp : t.kern.Positive) (h : ∀ v ∈ t.kappa, 0 ≤ v) {n : ℕ}
    (x : Fin n → List ℝ) : (Matrix.of fun i j => t.cov (x i) (x j)).PosSemidef := by
  obtain ⟨b1, -, -, b4⟩ := back_spec hp ht.variance
  obtain ⟨k, -, -, c, hc⟩ := ht.column
  have hk := doc_psd_line (fun i => (x i).getD c 0) _ b1
  have e : (Matrix.of fun i j => t.cov (x i) (x j)) = (Matrix.of fun i j => t.B (gpyIndex (x i)) (gpyIndex (x j))).hadamard
      (Matrix.of fun i j => t.kern.back.doc |(x i).getD c 0 - (x j).getD c 0|) := by
    ext i j
    rw [Matrix.hadamard_apply]
    simp only [Matrix.of_apply]
    unfold GpyTerm.cov
    rw [b4, hc, distOn_line]
  rw [e]
  exact (termB_psd h _).hadamard hk

theorem gpyCov_psd {o : GPyLMC} {D : ℕ} {kernels : List Kern} {ranks : List ℕ} (ht : ∀ t ∈ o.terms, t.Of D kernels ranks) (hp : o.Proper) {n : ℕ}
    (x : Fin n → List ℝ) : (Matrix.of fun i j => o.cov (x i) (x j)).PosSemidef := by
  have e : (Matrix.of fun i j => o.cov (x i) (x j)) = ∑ q : Fin o.terms.length, Matrix.of fun i j => o.terms[(q : ℕ)].cov (x i) (x j) := by
    ext i j
    rw [Matrix.sum_apply]
    simp only [Matrix.of_apply]
    unfold GPyLMC.cov
    rw [← Fin.sum_univ_fun_getElem]
  rw [e]
  refine Matrix.posSemidef_sum _ fun q _ => ?_
  have hm := List.getElem_mem (l := o.terms) q.2
  exact term_psd (ht _ hm) (hp.kern _ hm) (hp.kappa _ hm) x

theorem gpyKy_posDef {o : GPyLMC} {D : ℕ} {kernels : List Kern} {ranks : List ℕ} (ht : ∀ t ∈ o.terms, t.Of D kernels ranks) (hp : o.Proper)
    (hi : ∀ r < o.rows.rows, o.index.getD r 0 < o.noise.length) : (fnMatrix o.rows.rows o.rows.rows o.Ky).PosDef := by
  have e : fnMatrix o.rows.rows o.rows.rows o.Ky = Matrix.diagonal (fun r : Fin o.rows.rows => o.noise.getD (o.index.getD r 0) 0 + gpyJitter) +
      Matrix.of fun i j : Fin o.rows.rows => o.cov (o.rows.row i) (o.rows.row j) := by
    ext r s
    rw [Matrix.add_apply, add_comm]
    show o.Ky r s = _
    unfold GPyLMC.Ky
    congr 1
    by_cases hrs : r = s
    · subst hrs
      rw [if_pos rfl, Matrix.diagonal_apply_eq]
    · rw [if_neg (fun h => hrs (Fin.ext h)), Matrix.diagonal_apply_ne _ hrs]
  rw [e]
  refine Matrix.PosDef.add_posSemidef ?_ (gpyCov_psd ht hp _)
  rw [Matrix.posDef_diagonal_iff]
  intro r
  have h1 := hi r r.2
  rw [List.getD_eq_getElem _ _ h1]
  have := hp.noise _ (List.getElem_mem h1)
  have : 0 < gpyJitter := by unfold gpyJitter; positivity
  linarith

theorem from_posDef {Xs Ys : List (NDArr ℝ)} {P : ℕ} {kernels : List Kern} {ranks : List ℕ} {o : GPyLMC} (hD : Dataset Xs Ys P)
    (hw : ∀ X ∈ Xs, X.WF) (h : o.From Xs Ys kernels ranks) (hp : o.Proper) : (fnMatrix o.rows.rows o.rows.rows o.Ky).PosDef := by
  obtain ⟨hn, ht⟩ := from_terms h
  have hh := from_holds hD hw h
  refine gpyKy_posDef ht hp fun r hr => ?_
  rw [hh.count] at hr
  rw [hh.index r hr, hn, ← hD.len]
  have := ownerOf_lt _ r hr
  simpa [padded] using this

/-! ### inputs of dimension 1 -/

theorem gpyIndex_one (x : ℕ → ℝ) (a : ℕ) : gpyIndex (vmk 1 x ++ [(a : ℝ)]) = a := by
  have : (vmk 1 x ++ [(a : ℝ)]).getD gpyIndexColumn 0 = a := rfl
  unfold gpyIndex
  rw [this, Nat.floor_natCast]

theorem gpyCov_one {o : GPyLMC} {fk : FK} (hs : fk.SameAs o) (hc : ∀ t ∈ o.terms, ∀ c ∈ t.kern.columns, c < 1) {D : ℕ} (hW : ∀ t ∈ o.terms, t.W.rows = D)
    {a b : ℕ} (ha : a < D) (hb : b < D) (x z : ℕ → ℝ) : o.cov (vmk 1 x ++ [(a : ℝ)]) (vmk 1 z ++ [(b : ℝ)]) = fk.cov a b x z := by
  unfold GPyLMC.cov FK.cov
  rw [← Fin.sum_univ_fun_getElem, hs.terms, Finset.sum_range]
  refine Finset.sum_congr rfl fun q _ => ?_
  have hq : o.terms[(q : ℕ)]? = some o.terms[(q : ℕ)] := List.getElem?_eq_getElem q.2
  have hm : o.terms[(q : ℕ)] ∈ o.terms := List.getElem_mem q.2
  unfold GpyTerm.cov
  rw [hs.func _ _ hq, hs.dims _ _ hq, gpyIndex_one, gpyIndex_one]
  congr 1
  · unfold GpyTerm.B FK.B
    obtain ⟨v1, v2⟩ := hs.vecs _ _ hq
    rw [hs.kappa _ _ hq, v1]
    congr 1
    refine Finset.sum_congr rfl fun r hr => ?_
    rw [v2 r a (Finset.mem_range.1 hr) (by rw [hW _ hm]; exact ha), v2 r b (Finset.mem_range.1 hr) (by rw [hW _ hm]; exact hb)]
  · congr 1
    unfold distOn
    congr 2
    refine List.map_congr_left fun c hcm => ?_
    have : c = 0 := by have := hc _ hm c hcm; omega
    subst this
    rfl

theorem jittered_noise (fk : FK) {a : ℕ} (ha : a < fk.noise.length) : fk.jittered.noise.getD a 0 = fk.noise.getD a 0 + gpyJitter := by
  show (fk.noise.map (· + 1 / 10 ^ 8)).getD a 0 = _
  rw [map_getD_lt ha _ _ 0]
  rfl

theorem gpyKy_one {o : GPyLMC} {fk : FK} {Xs Ys : List (NDArr ℝ)} (hh : o.Holds Xs Ys 1) (hs : fk.SameAs o) (hwf : fk.WF)
    (hc : ∀ t ∈ o.terms, ∀ c ∈ t.kern.columns, c < 1) (hD : Xs.length = fk.D) (hW : ∀ t ∈ o.terms, t.W.rows = fk.D) :
    fnMatrix ((padded 1 Xs).map Arr2.rows).sum ((padded 1 Xs).map Arr2.rows).sum o.Ky = fk.jittered.covMat (padded 1 Xs) := by
  have hlt : ∀ r < ((padded 1 Xs).map Arr2.rows).sum, ownerOf ((padded 1 Xs).map Arr2.rows) r < fk.D := fun r hr => by
    have := ownerOf_lt _ r hr
    simpa [padded, hD] using this
  ext r s
  show o.Ky r s = fk.jittered.fullCov (padded 1 Xs) r s
  unfold GPyLMC.Ky FK.fullCov
  rw [hh.row r r.2, hh.row s s.2, gpyCov_one hs hc hW (hlt r r.2) (hlt s s.2), hh.index r r.2, ← hs.noise]
  congr 1
  by_cases h : (r : ℕ) = s
  · rw [if_pos h, if_pos h, jittered_noise fk (by rw [hwf.noise]; exact hlt r r.2)]
  · rw [if_neg h, if_neg h]

theorem jittered_posDef {fk : FK} (hwf : fk.WF) (hso : fk.Sound) {Xs : List (Arr2 ℝ)} (hX : Xs.length = fk.D) : (fk.jittered.covMat Xs).PosDef := by
  have hw : fk.jittered.WF := ⟨hwf.Dpos, hwf.vecs, hwf.diags, by show (fk.noise.map _).length = _; rw [List.length_map]; exact hwf.noise, hwf.counts, hwf.vec,
    hwf.diag, hwf.slfm, hwf.slfmRank, hwf.indep⟩
  refine covMat_posDef hw hX hso.kernels hso.kappa fun a ha => ?_
  have ha' : a < fk.D := ha
  rw [jittered_noise fk (by rw [hwf.noise]; exact ha')]
  have := hso.noise a ha'
  have : 0 < gpyJitter := by unfold gpyJitter; positivity
  linarith

/-! ### inputs of more dimensions -/

theorem gpyCov_blind {o : GPyLMC} {P : ℕ} (hP : 2 ≤ P) (hc : ∀ t ∈ o.terms, ∀ c ∈ t.kern.columns, c < P) {x x' : ℕ → ℝ} (hx : ∀ c < P, x c = x' c) (a a' : ℝ)
    (z : List ℝ) : o.cov (vmk P x ++ [a]) z = o.cov (vmk P x' ++ [a']) z := by
  have hg : ∀ c < P, (vmk P x ++ [a]).getD c 0 = (vmk P x' ++ [a']).getD c 0 := fun c h => by
    rw [List.getD_append _ _ _ _ (by rw [vmk_length]; exact h), List.getD_append _ _ _ _ (by rw [vmk_length]; exact h), vmk_getD_lt h, vmk_getD_lt h, hx c h]
  unfold GPyLMC.cov
  congr 1
  refine List.map_congr_left fun t ht => ?_
  unfold GpyTerm.cov gpyIndex distOn gpyIndexColumn
  rw [hg 1 (by omega)]
  congr 4
  refine List.map_congr_left fun c hcm => ?_
  beta_reduce
  rw [hg c (hc t ht c hcm)]

theorem gpyMean_blind {o : GPyLMC} {P : ℕ} (hP : 2 ≤ P) (hc : ∀ t ∈ o.terms, ∀ c ∈ t.kern.columns, c < P) {x x' : ℕ → ℝ} (hx : ∀ c < P, x c = x' c) (a a' : ℝ) :
    o.mean (vmk P x ++ [a]) = o.mean (vmk P x' ++ [a']) := by
  unfold GPyLMC.mean GPyLMC.cross
  congr 1
  funext s
  exact gpyCov_blind hP hc hx a a' _

end Verif
