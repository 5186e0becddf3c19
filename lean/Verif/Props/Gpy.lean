import Verif.Spec.Gpy
import Verif.Props.Util
import Verif.Props.Interp2
import Verif.Props.Grid2
import Verif.Proofs.GridKernel
import Verif.Proofs.Likelihood
import Verif.Proofs.LLGPRaw
import Verif.Proofs.LLGPAnyState

/-! C58, C68: the GPy wrapper. -/

namespace Verif

/-! ### C68 -/

/-- C68: the GPy kernel's formula is the documented function of the kernel, for every distance, and it acts on the dimension the kernel is given. A kernel
without `active_dims` becomes one that reads the first coordinate alone. -/
theorem C68_to_gpy (k : Kern) (h : k.Valid) (gk : GpyKern) (hk : k.toGpy = .ok gk) :
    gk.columns = k.activeDims.getD [0] ∧ gk.columns.length = 1 ∧ ∀ r, gk.formula r = k.doc r := by
  have hs : ∀ {g : ℝ}, 0 < g → ∀ s : ℝ, (s / g ^ (-0.5 : ℝ)) ^ 2 = g * s ^ 2 := by
    intro g hg s
    rw [div_pow, ← Real.rpow_natCast (g ^ (-0.5 : ℝ)) 2, ← Real.rpow_mul hg.le, show (-0.5 : ℝ) * ((2 : ℕ) : ℝ) = -1 by norm_num, Real.rpow_neg_one, div_inv_eq_mul, mul_comm]
  have ho : ∀ {ad : Option (List ℕ)} {k : GpyKern}, gpyOneDim ad k = .ok gk → gk = k ∧ (ad.getD [0]).length = 1 := by
    intro ad k hk
    cases ad with
    | none => cases hk; exact ⟨rfl, rfl⟩
    | some l =>
      unfold gpyOneDim at hk
      by_cases hl : l.length = 1
      · simp only [if_pos hl, Except.ok.injEq] at hk
        exact ⟨hk.symm, hl⟩
      · simp only [if_neg hl] at hk
        cases hk
  cases k with
  | rbf g ad =>
    obtain ⟨rfl, hl⟩ := ho hk
    refine ⟨rfl, hl, fun r => ?_⟩
    simp only [GpyKern.formula, Kern.doc]
    rw [hs h, one_mul]
    congr 1; ring
  | matern32 g ad =>
    obtain ⟨rfl, hl⟩ := ho hk
    refine ⟨rfl, hl, fun r => ?_⟩
    simp only [GpyKern.formula, Kern.doc]
    rw [one_mul, div_div_eq_mul_div, div_one]
    congr 1
    · ring
    · congr 1; ring
  | stdPeriodic g T ad =>
    obtain ⟨rfl, hl⟩ := ho hk
    refine ⟨rfl, hl, fun r => ?_⟩
    simp only [GpyKern.formula, Kern.doc]
    rw [hs h.1, one_mul]
    congr 1; ring
  | identity ad => cases hk
  | scaled k s ad => cases hk

/-- C68: exactly the RBF, Matérn-3/2 and periodic kernels of one dimension can be exported. `Identity` and `Scaled` raise NotImplementedError; kernels of no or
of several dimensions raise AssertionError. -/
theorem C68_raises (k : Kern) : ((∃ gk, k.toGpy = .ok gk) ∧ k.OneDim) ∨
    ((∃ ad, k = .identity ad) ∨ ∃ k' s ad, k = .scaled k' s ad) ∧ k.toGpy = .error .notImplementedError ∨
    (¬ k.OneDim ∧ k.toGpy = .error .assertionError) := by
  have ho : ∀ (ad : Option (List ℕ)) (g : GpyKern), (gpyOneDim ad g = .ok g ∧ (ad = none ∨ ∃ c, ad = some [c])) ∨
      (¬ (ad = none ∨ ∃ c, ad = some [c]) ∧ gpyOneDim ad g = .error .assertionError) := by
    intro ad g
    cases ad with
    | none => exact .inl ⟨rfl, .inl rfl⟩
    | some l =>
      by_cases hl : l.length = 1
      · obtain ⟨c, rfl⟩ := List.length_eq_one_iff.1 hl
        exact .inl ⟨rfl, .inr ⟨c, rfl⟩⟩
      · refine .inr ⟨?_, if_neg hl⟩
        rintro (h | ⟨c, h⟩) <;> simp at h
        subst h; exact hl rfl
  cases k with
  | rbf g ad => rcases ho ad (.rbf 1 (g ^ (-0.5 : ℝ)) ad) with ⟨h1, h2⟩ | ⟨h1, h2⟩; exacts [.inl ⟨⟨_, h1⟩, h2⟩, .inr (.inr ⟨h1, h2⟩)]
  | matern32 g ad => rcases ho ad (.matern32 1 (1 / g) ad) with ⟨h1, h2⟩ | ⟨h1, h2⟩; exacts [.inl ⟨⟨_, h1⟩, h2⟩, .inr (.inr ⟨h1, h2⟩)]
  | stdPeriodic g T ad => rcases ho ad (.stdPeriodic 1 (g ^ (-0.5 : ℝ)) T ad) with ⟨h1, h2⟩ | ⟨h1, h2⟩; exacts [.inl ⟨⟨_, h1⟩, h2⟩, .inr (.inr ⟨h1, h2⟩)]
  | identity ad => exact .inr (.inl ⟨.inl ⟨_, rfl⟩, rfl⟩)
  | scaled k s ad => exact .inr (.inl ⟨.inr ⟨_, _, _, rfl⟩, rfl⟩)

/-- C68: with as many ranks as kernels (at least one), all of them exportable, the model GPy gets has one coregionalized term per kernel, in order, with
that kernel's function and its rank. -/
theorem C68_terms (kernels : List Kern) (ranks : List ℕ) (hne : kernels ≠ []) (hl : kernels.length = ranks.length) (hv : ∀ k ∈ kernels, k.Valid)
    (he : ∀ k ∈ kernels, ∃ gk, k.toGpy = .ok gk) :
    ∃ terms, constructGpy kernels ranks = .ok terms ∧ terms.length = kernels.length ∧ ∀ q < kernels.length, ∃ gk, terms[q]? = some (gk, ranks.getD q 0) ∧
      ∀ r, gk.formula r = (kernels.getD q (.identity none)).doc r := by
  obtain ⟨gks, h1, h2⟩ := mapExcept_forall2 (f := Kern.toGpy) (R := fun k gk => ∀ r, gk.formula r = k.doc r) (l := kernels) fun k hk => by
    obtain ⟨gk, hg⟩ := he k hk
    exact ⟨gk, hg, (C68_to_gpy k (hv k hk) gk hg).2.2⟩
  have hlen := h2.length_eq
  have hc : constructGpy kernels ranks = .ok (gks.zip ranks) := by
    unfold constructGpy
    rw [h1, ok_bind]
    cases gks with
    | nil => exact absurd (List.length_eq_zero_iff.1 hlen) hne
    | cons g gs =>
      cases ranks with
      | nil => exact absurd (List.length_eq_zero_iff.1 hl) hne
      | cons r rs => rfl
  refine ⟨_, hc, by rw [List.length_zip]; omega, fun q hq => ?_⟩
  have hq1 : q < gks.length := by omega
  have hq2 : q < ranks.length := by omega
  refine ⟨gks[q], ?_, ?_⟩
  · rw [List.getElem?_eq_getElem (by rw [List.length_zip]; omega), List.getElem_zip, List.getD_eq_getElem _ _ hq2]
  · have := (List.forall₂_iff_get.1 h2).2 q hq hq1
    rw [List.getD_eq_getElem _ _ hq]
    exact this

/-- two kernels of a kind each and their ranks -/
example : ∃ terms, constructGpy [.rbf 4 none, .stdPeriodic 1 2 (some [0])] [1, 3] = .ok terms ∧ terms.length = 2 := by
  obtain ⟨t, h1, h2, -⟩ := C68_terms [.rbf 4 none, .stdPeriodic 1 2 (some [0])] [1, 3] (by simp) rfl (by
    intro k hk
    simp only [List.mem_cons, List.not_mem_nil, or_false] at hk
    rcases hk with rfl | rfl
    · exact (by norm_num : (0 : ℝ) < 4)
    · refine ⟨one_pos, ?_⟩
      have := Real.exp_lt_one_iff.2 (show (-200 : ℝ) < 0 by norm_num)
      linarith) (by
    intro k hk
    simp only [List.mem_cons, List.not_mem_nil, or_false] at hk
    rcases hk with rfl | rfl <;> exact ⟨_, rfl⟩)
  exact ⟨t, h1, h2⟩

/-! ### C58 -/

theorem npRepeat_get {α : Type} (d : α) : ∀ (xs : List α) (c : List ℕ) (i : ℕ), xs.length = c.length → i < c.sum →
    (npRepeat xs c).getD i d = xs.getD (ownerOf c i) d
  | [], [], i, _, hi => by simp at hi
  | [], _ :: _, _, h, _ => by simp at h
  | _ :: _, [], _, h, _ => by simp at h
  | x :: xs, n :: c, i, h, hi => by
    have e : npRepeat (x :: xs) (n :: c) = List.replicate n x ++ npRepeat xs c := by simp [npRepeat]
    rw [e, ownerOf]
    by_cases h1 : i < n
    · rw [if_pos h1, List.getD_append _ _ _ _ (by simpa using h1), List.getD_replicate _ h1]; rfl
    · rw [if_neg h1, List.getD_append_right _ _ _ _ (by simpa using h1), List.length_replicate,
        npRepeat_get d xs c (i - n) (by simpa using h) (by simp at hi; omega)]
      rfl

/-- what the wrapper hands to GPy: one row per query point, with its coordinates and its output index -/
theorem gpy_setup {P : ℕ} {Qs : List (NDArr ℝ)} (hne : Qs ≠ []) (hsh : ∀ X ∈ Qs, ∃ n, PointsShape X n P) (hw : ∀ X ∈ Qs, X.WF) :
    ∃ X XM, padDims P Qs = .ok (padded P Qs) ∧ vstackX (padded P Qs) = .ok X ∧
      hstackMeta X (npRepeat (List.range (padded P Qs).length) ((padded P Qs).map Arr2.rows)) = .ok XM ∧
      XM.WF ∧ XM.rows = (queryLens Qs).sum ∧ (npRepeat (List.range (padded P Qs).length) ((padded P Qs).map Arr2.rows)).length = (queryLens Qs).sum ∧ XM.cols = P + 1 ∧
      ∀ d < Qs.length, ∀ i < (queryLens Qs).getD d 0, XM.row (offset (queryLens Qs) d + i) = queryRow P Qs d i ∧
        (npRepeat (List.range (padded P Qs).length) ((padded P Qs).map Arr2.rows)).getD (offset (queryLens Qs) d + i) 0 = d := by
  have hD : 0 < Qs.length := List.length_pos_iff.2 hne
  have hin : InputsOK Qs.length P (padded P Qs) := padded_inputs ⟨rfl, hsh⟩ hw
  obtain ⟨v1, v2, v3⟩ := vstackX_ok hin hD
  have hlen : (List.range (padded P Qs).length).length = ((padded P Qs).map Arr2.rows).length := by simp
  have hml := npRepeat_length (List.range (padded P Qs).length) ((padded P Qs).map Arr2.rows) hlen
  have hX : hstackMeta (npVstack (padded P Qs)) (npRepeat (List.range (padded P Qs).length) ((padded P Qs).map Arr2.rows)) = .ok _ := if_pos (by rw [v2, hml])
  refine ⟨_, _, padDims_dataset hsh, v1, hX, Arr2.of_wf .., by rw [← padded_lens P]; exact v2, by rw [hml, padded_lens], congrArg (· + 1) v3, ?_⟩
  intro d hd i hi
  rw [← padded_lens P Qs] at hi ⊢
  have hd' : d < ((padded P Qs).map Arr2.rows).length := by rw [padded_lens]; simpa [queryLens] using hd
  obtain ⟨o1, o2, o3⟩ := ownerOf_offset hd' hi
  have hmt : (npRepeat (List.range (padded P Qs).length) ((padded P Qs).map Arr2.rows)).getD (offset ((padded P Qs).map Arr2.rows) d + i) 0 = d := by
    rw [npRepeat_get 0 _ _ _ hlen o2, o1, List.getD_eq_getElem _ _ (by simpa using hd'), List.getElem_range]
  refine ⟨?_, hmt⟩
  refine list_ext_getD 0 ?_ ?_
  · simp only [queryRow, List.length_append, vmk_length, List.length_singleton, Arr2.row, Arr2.of_cols, v3]
  · intro j hj
    have hj' : j < P + 1 := by simpa [Arr2.row, vmk_length, Arr2.of_cols, v3] using hj
    rw [Arr2.row_getD (by simpa [Arr2.of_cols, v3] using hj'), Arr2.of_get (by rw [v2]; exact o2) (by rw [v3]; exact hj')]
    unfold queryRow
    by_cases hjP : j < P
    · rw [if_pos (by rw [v3]; exact hjP), vstackX_get hin hD o2 hjP, o1, o3, List.getD_append _ _ _ _ (by rw [vmk_length]; exact hjP), vmk_getD_lt hjP,
        pointOf_padded hd]
    · have : j = P := by omega
      subst this
      rw [if_neg (by rw [v3]; omega), hmt, List.getD_append_right _ _ _ _ (by rw [vmk_length]), vmk_length, Nat.sub_self]
      rfl

theorem tesselate_entries {α : Type} (a : List α) (lens : List ℕ) (hne : lens ≠ []) (hs : a.length = lens.sum) :
    ∃ r, tesselate a lens = .ok r ∧ r.length = lens.length ∧ (∀ d < lens.length, (r.getD d []).length = lens.getD d 0) ∧
      ∀ (z : α), ∀ d < lens.length, ∀ i < lens.getD d 0, (r.getD d []).getD i z = a.getD (offset lens d + i) z := by
  obtain ⟨h1, -, h3⟩ := C59_tesselate a lens
  obtain ⟨r, hr⟩ := h1.2 ⟨hne, hs.symm⟩
  obtain ⟨f1, f2⟩ := h3 r hr
  have hl : r.length = lens.length := by rw [← f2, List.length_map]
  have hd' : ∀ d < lens.length, (r.getD d []).length = lens.getD d 0 := by
    intro d hd
    rw [← f2, map_getD_lt (by omega) _ _ []]
  refine ⟨r, hr, hl, hd', fun z d hd i hi => ?_⟩
  have := flatten_getD r z (b := d) (i := i) (by omega) (by rw [hd' d hd]; exact hi)
  rw [f1, f2] at this
  exact this.symm

/-- C58: for any non-empty list of query arrays of the model's input dimension and a GPy model that predicts point by point, `predict` returns for output `d`
and point `i` GPy's mean and variance for (coordinates of point `i` of array `d`, `d`), in the shape of the queries. -/
theorem C58_predict (gp : MultiGP) (g : GpyModel) (mean var : List ℝ → ℕ → ℝ) (quant : ℝ → List ℝ → ℕ → ℝ) (hg : g.Pointwise gp.inputDim mean var quant)
    (Qs : List (NDArr ℝ)) (hne : Qs ≠ []) (hsh : ∀ X ∈ Qs, ∃ n, PointsShape X n gp.inputDim) (hw : ∀ X ∈ Qs, X.WF) :
    ∃ p, gpyPredict gp g Qs = .ok p ∧ PredictedAs p Qs.length (queryLens Qs) (fun d i => mean (queryRow gp.inputDim Qs d i) d) (fun d i => var (queryRow gp.inputDim Qs d i) d) := by
  obtain ⟨X, XM, h1, h2, h3, h4, h5, h6, h7, h8⟩ := gpy_setup hne hsh hw
  have hl : queryLens Qs ≠ [] := by unfold queryLens; simpa using hne
  have hll : (queryLens Qs).length = Qs.length := by unfold queryLens; simp
  have col : ∀ f : ℕ → ℕ → ℝ, (Arr2.of XM.rows 1 f).data.length = (queryLens Qs).sum := fun f => by rw [← h5, Arr2.of_wf]; simp [Arr2.of]
  have get : ∀ (f : ℕ → ℕ → ℝ) (r : ℕ), r < (queryLens Qs).sum → (Arr2.of XM.rows 1 f).data.getD r 0 = f r 0 := fun f r hr => by
    have := Arr2.of_get (f := f) (r := XM.rows) (c := 1) (i := r) (j := 0) (by rw [h5]; exact hr) one_pos
    rw [← this, Arr2.get]
    simp [Arr2.of]
  obtain ⟨a, a1, a2, a3, a4⟩ := tesselate_entries (Arr2.of XM.rows 1 fun i _ => mean (XM.row i) ((npRepeat (List.range (padded gp.inputDim Qs).length) ((padded gp.inputDim Qs).map Arr2.rows)).getD i 0)).data
    (queryLens Qs) hl (col _)
  obtain ⟨b, b1, b2, b3, b4⟩ := tesselate_entries (Arr2.of XM.rows 1 fun i _ => var (XM.row i) ((npRepeat (List.range (padded gp.inputDim Qs).length) ((padded gp.inputDim Qs).map Arr2.rows)).getD i 0)).data
    (queryLens Qs) hl (col _)
  refine ⟨(a, b), ?_, ⟨a2.trans hll, b2.trans hll⟩, fun d hd => ⟨a3 d (by omega), b3 d (by omega)⟩, fun d hd i hi => ?_⟩
  · unfold gpyPredict
    simp only [h1, ok_bind, h2, h3]
    rw [hg.predict _ _ h4 (by rw [h5, h6]) h7, ok_bind]
    simp only [padded_lens] at a1 b1 ⊢
    rw [a1, ok_bind, b1, ok_bind]
    rfl
  · obtain ⟨r1, r2⟩ := h8 d hd i hi
    have hr := (ownerOf_offset (lens := queryLens Qs) (by omega) hi).2.1
    refine ⟨?_, ?_⟩
    · rw [a4 0 d (by omega) i hi, get _ _ hr, r1, r2]
    · rw [b4 0 d (by omega) i hi, get _ _ hr, r1, r2]

theorem col_length (n : ℕ) (f : ℕ → ℕ → ℝ) : (Arr2.of n 1 f).data.length = n := by simp [Arr2.of]

theorem col_get (n : ℕ) (f : ℕ → ℕ → ℝ) {r : ℕ} (hr : r < n) : (Arr2.of n 1 f).data.getD r 0 = f r 0 := by
  rw [← Arr2.of_get (f := f) (r := n) (c := 1) (i := r) (j := 0) hr one_pos, Arr2.get]
  simp [Arr2.of]

/-- stacking one column per quantile and transposing: row `i` holds the quantiles of point `i` -/
theorem stackQuantiles_columns {n : ℕ} {qs : List ℝ} (hq : qs ≠ []) (f : ℝ → ℕ → ℝ) :
    stackQuantiles (qs.map fun q => Arr2.of n 1 fun i _ => f q i) qs.length = .ok (vmk n fun i => qs.map fun q => f q i) := by
  have hpos : 0 < qs.length := List.length_pos_iff.2 hq
  have hlens : ∀ qs : List ℝ, (qs.map fun q => Arr2.of n 1 fun i _ => f q i).map (fun A => A.data.length) = List.replicate qs.length n := by
    intro qs
    rw [List.map_map, List.eq_replicate_iff]
    refine ⟨by simp, fun b hb => ?_⟩
    obtain ⟨q, -, rfl⟩ := List.mem_map.1 hb
    exact col_length n _
  have hflat : ((qs.map fun q => Arr2.of n 1 fun i _ => f q i).flatMap Arr2.data).length = qs.length * n := by
    rw [List.length_flatMap, hlens, List.sum_replicate, smul_eq_mul]
  have hget : ∀ k < qs.length, ∀ i < n, ((qs.map fun q => Arr2.of n 1 fun i _ => f q i).flatMap Arr2.data).getD (k * n + i) 0 = f (qs.getD k 0) i := by
    intro k hk i hi
    have e : (qs.map fun q => Arr2.of n 1 fun i _ => f q i).flatMap Arr2.data = ((qs.map fun q => Arr2.of n 1 fun i _ => f q i).map Arr2.data).flatten := rfl
    have hb : ((qs.map fun q => Arr2.of n 1 fun i _ => f q i).map Arr2.data).getD k [] = (Arr2.of n 1 fun i _ => f (qs.getD k 0) i).data := by
      rw [List.map_map, map_getD_lt hk _ _ 0]
      rfl
    have := flatten_getD ((qs.map fun q => Arr2.of n 1 fun i _ => f q i).map Arr2.data) 0 (b := k) (i := i) (by simpa using hk) (by rw [hb, col_length]; exact hi)
    have hlens' : ((qs.map fun q => Arr2.of n 1 fun i _ => f q i).map Arr2.data).map List.length = List.replicate qs.length n := by
      rw [← hlens qs, List.map_map]
      rfl
    rw [hlens', List.take_replicate, List.sum_replicate, smul_eq_mul,
      min_eq_left hk.le, hb, col_get n _ hi] at this
    rw [e]
    exact this
  cases qs with
  | nil => exact absurd rfl hq
  | cons q qs =>
    rw [List.map_cons] at hflat hget ⊢
    unfold stackQuantiles
    simp only
    rw [if_pos, if_neg, if_neg]
    · congr 1
      rw [hflat, Nat.mul_div_cancel_left _ hpos]
      refine vmk_congr fun i hi => ?_
      rw [map_eq_vmk (q :: qs) 0]
      exact vmk_congr fun k hk => hget k hk i hi
    · rw [hflat, Nat.mul_mod_right]
      simp
    · simp [Arr2.of]
    · intro R hR
      obtain ⟨q', -, rfl⟩ := List.mem_map.1 hR
      exact ⟨rfl, rfl⟩

/-- C58: `predict_quantiles` returns for output `d` an array with a row per query point of `d`, holding GPy's quantiles for (that point, `d`) in the order asked
for. -/
theorem C58_quantiles (gp : MultiGP) (g : GpyModel) (mean var : List ℝ → ℕ → ℝ) (quant : ℝ → List ℝ → ℕ → ℝ) (hg : g.Pointwise gp.inputDim mean var quant)
    (Qs : List (NDArr ℝ)) (hne : Qs ≠ []) (hsh : ∀ X ∈ Qs, ∃ n, PointsShape X n gp.inputDim) (hw : ∀ X ∈ Qs, X.WF) (qs : List ℝ) (hq : qs ≠ []) :
    ∃ r, gpyQuantiles gp g Qs qs = .ok r ∧ r.length = Qs.length ∧ ∀ d < Qs.length, (r.getD d []).length = (queryLens Qs).getD d 0 ∧
      ∀ i < (queryLens Qs).getD d 0, (r.getD d []).getD i [] = qs.map fun q => quant q (queryRow gp.inputDim Qs d i) d := by
  obtain ⟨X, XM, h1, h2, h3, h4, h5, h6, h7, h8⟩ := gpy_setup hne hsh hw
  have hl : queryLens Qs ≠ [] := by unfold queryLens; simpa using hne
  have hll : (queryLens Qs).length = Qs.length := by unfold queryLens; simp
  obtain ⟨a, a1, a2, a3, a4⟩ := tesselate_entries
    (vmk XM.rows fun i => qs.map fun q => quant q (XM.row i) ((npRepeat (List.range (padded gp.inputDim Qs).length) ((padded gp.inputDim Qs).map Arr2.rows)).getD i 0))
    (queryLens Qs) hl (by rw [vmk_length, h5])
  refine ⟨a, ?_, a2.trans hll, fun d hd => ⟨a3 d (by omega), fun i hi => ?_⟩⟩
  · unfold gpyQuantiles
    simp only [h1, ok_bind, h2, h3]
    rw [hg.quantiles _ _ _ h4 (by rw [h5, h6]) h7, ok_bind,
      stackQuantiles_columns hq (fun q i => quant q (XM.row i) ((npRepeat (List.range (padded gp.inputDim Qs).length) ((padded gp.inputDim Qs).map Arr2.rows)).getD i 0)), ok_bind]
    simp only [padded_lens] at a1 ⊢
    exact a1
  · obtain ⟨r1, r2⟩ := h8 d hd i hi
    have hr := (ownerOf_offset (lens := queryLens Qs) (by omega) hi).2.1
    rw [a4 [] d (by omega) i hi, vmk_getD_lt (by rw [h5]; exact hr), r1, r2]

/-- C58: with no query arrays, or one of another dimension, both methods raise. -/
theorem C58_raises (gp : MultiGP) (g : GpyModel) (Qs : List (NDArr ℝ)) (h : Qs = [] ∨ ∃ X ∈ Qs, ∀ n, ¬ PointsShape X n gp.inputDim) (qs : List ℝ) :
    (∃ e, gpyPredict gp g Qs = .error e) ∧ ∃ e, gpyQuantiles gp g Qs qs = .error e := by
  cases hp : padDims gp.inputDim Qs with
  | error e =>
    refine ⟨⟨e, ?_⟩, e, ?_⟩
    · unfold gpyPredict; rw [hp]; rfl
    · unfold gpyQuantiles; rw [hp]; rfl
  | ok Xs =>
    rcases h with rfl | ⟨X, hX, hn⟩
    · cases hp
      exact ⟨⟨.valueError, rfl⟩, .valueError, rfl⟩
    · obtain ⟨n, h2⟩ := (padDims_ok hp).1 X hX
      exact absurd h2 (hn n)

/-- A GPy model that predicts point by point: the mean is the sum of the row plus ten times the output index. -/
noncomputable def sumModel : GpyModel where
  predict X mt := .ok (Arr2.of X.rows 1 fun i _ => (X.row i).sum + 10 * (mt.getD i 0 : ℕ), Arr2.of X.rows 1 fun _ _ => 1)
  predictQuantiles X qs mt := .ok (qs.map fun q => Arr2.of X.rows 1 fun i _ => (X.row i).sum + 10 * (mt.getD i 0 : ℕ) + q)

theorem sumModel_pointwise (P : ℕ) : sumModel.Pointwise P (fun x d => x.sum + 10 * (d : ℕ)) (fun _ _ => 1) (fun q x d => x.sum + 10 * (d : ℕ) + q) :=
  ⟨fun _ _ _ _ _ => rfl, fun _ _ _ _ _ _ => rfl⟩

/-- one query for output 0, none for output 1, two for output 2; the second of those is at 6 -/
example : ∃ p, gpyPredict ⟨1, 3, none, [], []⟩ sumModel [⟨[1], [5]⟩, ⟨[0], []⟩, ⟨[2, 1], [7, 6]⟩] = .ok p ∧ (p.1.getD 2 []).getD 1 0 = 6 + 2 + 20 := by
  obtain ⟨p, h1, h2⟩ := C58_predict ⟨1, 3, none, [], []⟩ sumModel _ _ _ (sumModel_pointwise 1) [⟨[1], [5]⟩, ⟨[0], []⟩, ⟨[2, 1], [7, 6]⟩] (by simp)
    (by
      intro X hX
      simp only [List.mem_cons, List.not_mem_nil, or_false] at hX
      rcases hX with rfl | rfl | rfl
      · exact ⟨1, .inl ⟨rfl, rfl⟩⟩
      · exact ⟨0, .inl ⟨rfl, rfl⟩⟩
      · exact ⟨2, .inr rfl⟩)
    (by
      intro X hX
      simp only [List.mem_cons, List.not_mem_nil, or_false] at hX
      rcases hX with rfl | rfl | rfl <;> rfl)
  refine ⟨p, h1, ?_⟩
  rw [(h2.entry 2 (by norm_num) 1 (by decide)).1]
  norm_num [queryRow, vmk, queryPoint, List.range_succ]

end Verif
