import Verif.Proofs.LLGP
import Verif.Props.Autogrid
import Verif.Props.Predict

/-! The constructor of the models on documented arguments. -/

namespace Verif

/-- `_wrap` of an option that fits -/
theorem wrapOpt_ok {o : GridOpt} {P : ℕ} {ad : List ℕ} (hs : ∀ v, o = .scalar v → ad.length = 1) (hv : ∀ v, o = .vec v → v.length = P)
    (had : ∀ c ∈ ad, c < P) :
    ∃ w, wrapOpt o ad = .ok w ∧ w.fits ad.length ∧ (∀ v, w.vals = some v → ∀ k < ad.length, o.at (ad.getD k 0) = some (v.getD k 0)) ∧
      ∀ c x, o.at c = some x → ∃ v, w.vals = some v := by
  cases o with
  | none => exact ⟨.none, rfl, fun v hv => (by cases hv), fun v hv => (by cases hv), fun c x h => (by cases h)⟩
  | scalar x =>
    have h1 := hs x rfl
    refine ⟨.ndarray [x], if_pos h1, ?_, ?_, fun c y h => ⟨_, rfl⟩⟩
    · intro v hv; cases hv; exact h1.symm
    · intro v hv k hk
      cases hv
      have : k = 0 := by omega
      subst this
      rfl
  | vec u =>
    have h1 := hv u rfl
    refine ⟨.ndarray (ad.map fun c => u.getD c 0), if_pos (by rw [h1]; exact had), ?_, ?_, fun c y h => ⟨_, rfl⟩⟩
    · intro v hv; cases hv; simp
    · intro v hv k hk
      cases hv
      rw [map_getD_lt hk _ _ 0]
      rfl

/-- one group of dimensions -/
theorem generateGrid_ok {Xs : List (Arr2 ℝ)} {P : ℕ} (hne : Xs ≠ []) (hX : ∀ X ∈ Xs, 0 < X.rows ∧ X.cols = P) {lo hi m : GridOpt} {ad : List ℕ}
    (hs : ∀ o ∈ [lo, hi, m], ∀ v, o = .scalar v → ad.length = 1) (hv : ∀ o ∈ [lo, hi, m], ∀ v, o = .vec v → v.length = P)
    (hk : ad.length = 1 ∨ ad.length = 2) (had : ∀ c ∈ ad, c < P)
    (hm : ∀ c < P, ∀ v, m.at c = .some v → ∃ k : ℕ, 0 < k ∧ v = k)
    (hsp : ∀ c < P, ∃ X ∈ Xs, ∃ i < X.rows, (∃ X' ∈ Xs, ∃ i' < X'.rows, X.get i c < X'.get i' c) ∨
      (∃ l, lo.at c = .some l ∧ l < X.get i c) ∨ ∃ h, hi.at c = .some h ∧ X.get i c < h) :
    ∃ g, generateGrid Xs lo hi m ad = .ok g ∧ g.OK ad Xs := by
  obtain ⟨wlo, l1, l2, l3, l4⟩ := wrapOpt_ok (hs lo (by simp)) (hv lo (by simp)) had
  obtain ⟨whi, h1, h2, h3, h4⟩ := wrapOpt_ok (hs hi (by simp)) (hv hi (by simp)) had
  obtain ⟨wm, m1, m2, m3, m4⟩ := wrapOpt_ok (hs m (by simp)) (hv m (by simp)) had
  have hadk : ∀ k < ad.length, ad.getD k 0 < P := fun k hk => had _ (getD_mem_of_lt hk 0)
  set Xa := Xs.map fun X => Arr2.of X.rows ad.length fun i k => X.get i (ad.getD k 0) with hXa
  have hmemXa : ∀ X ∈ Xs, (Arr2.of X.rows ad.length fun i k => X.get i (ad.getD k 0)) ∈ Xa := fun X hX' => List.mem_map.2 ⟨X, hX', rfl⟩
  have hget : ∀ X : Arr2 ℝ, ∀ i < X.rows, ∀ k < ad.length, (Arr2.of X.rows ad.length fun i k => X.get i (ad.getD k 0)).get i k = X.get i (ad.getD k 0) :=
    fun X i hi k hk => Arr2.of_get hi hk
  obtain ⟨r, r1, r2, r3⟩ := C21_autogrid_brackets Xa ad.length wlo whi wm (by simpa [hXa] using hne)
    (by intro X hX'; obtain ⟨Y, hY, rfl⟩ := List.mem_map.1 hX'; exact ⟨(hX Y hY).1, rfl⟩) l2 h2 m2
    (by
      intro v hv k hk'
      exact hm _ (hadk k hk') _ (m3 v hv k hk'))
    (by
      intro k hk'
      obtain ⟨X, hX1, i, hi', hor⟩ := hsp _ (hadk k hk')
      refine ⟨_, hmemXa X hX1, i, hi', ?_⟩
      rw [hget X i hi' k hk']
      rcases hor with ⟨X', hX2, i', hi2, hlt⟩ | ⟨l, hl, hlt⟩ | ⟨h, hh, hlt⟩
      · exact .inl ⟨_, hmemXa X' hX2, i', hi2, by rw [hget X' i' hi2 k hk']; exact hlt⟩
      · obtain ⟨v, hv'⟩ := l4 _ _ hl
        have := l3 v hv' k hk'
        rw [hl] at this
        exact .inr (.inl ⟨v, hv', by rw [← Option.some.inj this]; exact hlt⟩)
      · obtain ⟨v, hv'⟩ := h4 _ _ hh
        have := h3 v hv' k hk'
        rw [hh] at this
        exact .inr (.inr ⟨v, hv', by rw [← Option.some.inj this]; exact hlt⟩))
  have hax : ∀ a ∈ r.grids, 4 ≤ a.length ∧ ∃ g0 h, 0 < h ∧ Equispaced a g0 h := by
    intro a ha
    obtain ⟨k, hk', rfl⟩ := mem_getD ha []
    obtain ⟨g, rfl, g0, h, c, hh, he, -, hl, -⟩ := r3 k (by rw [← r2]; exact hk')
    exact ⟨by omega, g0, h, hh, he⟩
  obtain ⟨R, R1, R2⟩ := interp_cols (axes := r.grids) r2 hk (fun a ha => (hax a ha).1) hne
  have hgood : ∀ a ∈ r.grids, GoodAxis a := fun a ha => by
    obtain ⟨h4, g0, h, hh, he⟩ := hax a ha
    exact ⟨by rintro rfl; simp at h4, g0, h, he⟩
  refine ⟨⟨r.grids, _, R.dense, R.dense.T⟩, ?_, hk, r2, fun a ha => (hax a ha).1, fun a ha => (hax a ha).2, gridDists_eq hgood, R2, rfl⟩
  unfold generateGrid
  rw [l1, h1, m1, takeCols_all (fun X hX' => (hX X hX').2) had]
  simp only [ok_bind]
  rw [← hXa, r1]
  simp only [ok_bind]
  rw [gridDists_eq hgood, hXa, R1]
  rfl

theorem padded_rows {P : ℕ} {Xs Ys : List (NDArr ℝ)} (h : Dataset Xs Ys P) (hx : ∀ X ∈ Xs, X.WF) (hy : ∀ Y ∈ Ys, Y.WF) :
    (padded P Xs).map Arr2.rows = Ys.map (fun Y => Y.data.length) ∧ ∀ X ∈ padded P Xs, X.WF := by
  constructor
  · refine list_ext_getD (d := 0) (by simp [padded, h.len]) fun i hi => ?_
    have hi : i < Xs.length := by simpa [padded] using hi
    have hiY : i < Ys.length := by rw [← h.len]; exact hi
    unfold padded
    rw [List.map_map, map_getD_lt hi _ _ ⟨[], []⟩, map_getD_lt hiY _ _ ⟨[], []⟩]
    obtain ⟨n, h1, h2⟩ := h.shape i hi
    have w := hy _ (getD_mem_of_lt hiY ⟨[], []⟩)
    unfold NDArr.WF at w
    rw [h1] at w
    simp only [Function.comp_apply]
    rw [w]
    rcases h2 with ⟨h2, -⟩ | h2 <;> rw [h2] <;> simp
  · intro X hX
    obtain ⟨Y, hY, rfl⟩ := List.mem_map.1 hX
    obtain ⟨n, hn⟩ := h.points Y hY
    have w := hx Y hY
    unfold NDArr.WF at w
    unfold Arr2.WF
    simp only
    rcases hn with ⟨h2, rfl⟩ | h2 <;> rw [w, h2] <;> simp

/-- a constructor call with documented arguments succeeds, and the model has everything the later operations need -/
theorem llgpInit_documented {a : LLGPArgs} {P : ℕ} {fk : FK} (h : a.Documented P fk) (hP : 0 < P) :
    ∃ m fk', llgpInit a = .ok m ∧ m.OK P ∧ fk.setInputDim P = .ok fk' ∧ m.fk = fk' ∧ m.gp.Xs = padded P a.Xs := by
  obtain ⟨norms, hgp, -⟩ := (C42_validation_partial a.Xs a.Ys (fun X hX => by
      obtain ⟨n, hn⟩ := h.data.points X hX
      rcases hn with ⟨hn, -⟩ | hn <;> rw [hn] <;> simp) (fun Y hY => by
      obtain ⟨i, hi, rfl⟩ := mem_getD hY ⟨[], []⟩
      obtain ⟨n, hn, -⟩ := h.data.shape i (by rw [h.data.len]; exact hi)
      rw [hn]; simp) a.normalize).2.2 P h.data
  obtain ⟨fk', hf, g⟩ := setInputDim_fresh fk P h.fresh
  have hready := ready_of_setInputDim fk fk' h.fresh h.wf P hP hf h.some h.valid fun k hk => (h.dims k hk).2
  have hgroups := groupsOK_of_setInputDim fk fk' h.fresh P hP hf
  obtain ⟨hrows, hwf⟩ := padded_rows h.data h.arraysX h.arraysY
  have hD : fk'.D = a.Xs.length := by rw [g.same]; exact h.outputs
  have hfill : ∀ X ∈ padded P a.Xs, 0 < X.rows := by
    intro X hX
    have : X.rows ∈ a.Ys.map (fun Y => Y.data.length) := by rw [← hrows]; exact List.mem_map_of_mem hX
    obtain ⟨Y, hY, e⟩ := List.mem_map.1 this
    rw [← e]
    exact List.length_pos_iff.2 (h.filled Y hY)
  have hcols : ∀ X ∈ padded P a.Xs, X.cols = P := by
    intro X hX
    obtain ⟨Y, -, rfl⟩ := List.mem_map.1 hX
    rfl
  have hkey : ∀ ad ∈ fk'.activeDims.map Prod.fst, ∃ k ∈ fk.kernels, dimsRead P k = ad := by
    intro ad had
    obtain ⟨x, hx, rfl⟩ := List.mem_map.1 had
    obtain ⟨h1, h2⟩ := (g.mem x.1 x.2).1 hx
    obtain ⟨i, hi⟩ := List.exists_mem_of_ne_nil _ h2
    rw [h1] at hi
    unfold FK.groupOf at hi
    rw [List.mem_filter, List.mem_range] at hi
    exact ⟨_, getD_mem_of_lt hi.1 _, by simpa using hi.2⟩
  have hgrid : ∀ ad ∈ fk'.activeDims.map Prod.fst, ∃ gg, generateGrid (padded P a.Xs) a.lo a.hi a.m ad = .ok gg ∧ gg.OK ad (padded P a.Xs) := by
    intro ad had
    obtain ⟨k, hk, rfl⟩ := hkey ad had
    refine generateGrid_ok (by simpa [padded] using h.data.nonempty) (fun X hX => ⟨hfill X hX, hcols X hX⟩) ?_ ?_ (h.dims k hk).1 (h.dims k hk).2
      h.sizes h.spread
    · have fits : ∀ o : GridOpt, o.Fits fk P → ∀ v, o = .scalar v → (dimsRead P k).length = 1 := by
        rintro o ho v rfl
        exact ho k hk
      intro o ho
      simp only [List.mem_cons, List.not_mem_nil, or_false] at ho
      rcases ho with rfl | rfl | rfl
      · exact fits _ h.lo
      · exact fits _ h.hi
      · exact fits _ h.m
    · have fits : ∀ o : GridOpt, o.Fits fk P → ∀ v, o = .vec v → v.length = P := by
        rintro o ho v rfl
        exact ho
      intro o ho
      simp only [List.mem_cons, List.not_mem_nil, or_false] at ho
      rcases ho with rfl | rfl | rfl
      · exact fits _ h.lo
      · exact fits _ h.hi
      · exact fits _ h.m
  obtain ⟨grids, hgs, hfa⟩ := mapExcept_forall2 (f := fun ad => do let g ← generateGrid (padded P a.Xs) a.lo a.hi a.m ad; return (ad, g))
    (R := fun ad g => g.1 = ad ∧ g.2.OK ad (padded P a.Xs)) (l := fk'.activeDims.map Prod.fst) fun ad had => by
      obtain ⟨gg, h1, h2⟩ := hgrid ad had
      exact ⟨(ad, gg), by rw [h1]; rfl, rfl, h2⟩
  have hkeys : grids.map Prod.fst = fk'.activeDims.map Prod.fst := by
    have : ∀ {l : List (List ℕ)} {gs : List (List ℕ × GroupGrid)}, List.Forall₂ (fun ad g => g.1 = ad ∧ g.2.OK ad (padded P a.Xs)) l gs → gs.map Prod.fst = l := by
      intro l gs hf
      induction hf with
      | nil => rfl
      | cons h1 _ ih => rw [List.map_cons, ih, h1.1]
    exact this hfa
  obtain ⟨mode, hmode⟩ : ∃ mode, predMode a.prediction = some mode := by
    have := h.mode
    simp only [List.mem_cons, List.not_mem_nil, or_false] at this
    rcases this with e | e | e <;> rw [e] <;> simp [predMode]
  refine ⟨_, fk', by
    unfold llgpInit
    rw [hgp]
    simp only [ok_bind, h.kernel, hmode]
    rw [hf]
    simp only [ok_bind]
    unfold generateGrids
    rw [show (a.Xs.map fun X => (⟨X.shape.headD 0, P, X.data⟩ : Arr2 ℝ)) = padded P a.Xs from rfl, hgs]
    rfl, ?_, hf, rfl, rfl⟩
  refine ⟨(gpReady_of_new hgp).1, rfl, hD.symm, hready, hgroups, ⟨⟨?_, hwf, hcols⟩, ?_⟩, hfill, hkeys, ?_⟩
  · rw [hD]; simp [padded]
  · show _ = (padded P a.Xs).map Arr2.rows
    rw [hrows]
    by_cases hn : a.normalize = true
    · simp only [hn, if_true]
      rw [List.map_map]
      refine List.map_congr_left fun Y _ => ?_
      exact List.length_map _
    · simp only [hn]
      rw [if_neg (by simp), List.map_map]
      rfl
  · intro x hx
    obtain ⟨ad, had, h1, h2⟩ := forall₂_mem_right hfa hx
    rw [h1]
    exact h2

end Verif
