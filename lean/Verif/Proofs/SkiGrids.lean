import Verif.Proofs.SkiAccuracy
import Verif.Proofs.LLGPNew

/-! The grids that the constructor makes cover the inputs, and how fine they are. -/

namespace Verif

theorem equispaced_fine {A : List ℝ} {g0 d L H : ℝ} {k : ℕ} (hk : 0 < k) (hd : 0 < d) (he : Equispaced A g0 d) (hl : A.length = k + 4)
    (h0 : A.getD 0 0 = L - 2 * ((H - L) / k)) (h1 : A.getD (A.length - 1) 0 = H + 2 * ((H - L) / k)) : FineAxis (5 / 4 * ((H - L) / k)) A := by
  refine ⟨by omega, g0, d, hd, ?_, he⟩
  rw [he 0 (by omega)] at h0
  rw [he _ (by omega), hl, show k + 4 - 1 = k + 3 by omega] at h1
  push_cast at h0 h1
  have kp : (1 : ℝ) ≤ k := by exact_mod_cast hk
  set D := (H - L) / k with hD
  have HL : H - L = k * D := by rw [hD]; field_simp
  have e : (k + 3) * d = (k + 4) * D := by linear_combination h1 - h0 + HL
  have Dp : 0 < D := by
    by_contra hn
    have h2 : (k + 4 : ℝ) * D ≤ 0 := mul_nonpos_of_nonneg_of_nonpos (by linarith) (not_lt.1 hn)
    have h3 : 0 < (k + 3 : ℝ) * d := by positivity
    linarith
  have h4 : (k + 3) * d ≤ (k + 3) * (5 / 4 * D) := by rw [e]; nlinarith
  exact le_of_mul_le_mul_left h4 (by linarith)

theorem generateGrid_covers {Xs : List (Arr2 ℝ)} {P : ℕ} (hne : Xs ≠ []) (hX : ∀ X ∈ Xs, 0 < X.rows ∧ X.cols = P) {lo hi m : GridOpt} {ad : List ℕ}
    (hs : ∀ o ∈ [lo, hi, m], ∀ v, o = .scalar v → ad.length = 1) (hv : ∀ o ∈ [lo, hi, m], ∀ v, o = .vec v → v.length = P)
    (had : ∀ c ∈ ad, c < P)
    (hm : ∀ c < P, ∀ v, m.at c = .some v → ∃ k : ℕ, 0 < k ∧ v = k)
    (hsp : ∀ c < P, ∃ X ∈ Xs, ∃ i < X.rows, (∃ X' ∈ Xs, ∃ i' < X'.rows, X.get i c < X'.get i' c) ∨
      (∃ l, lo.at c = .some l ∧ l < X.get i c) ∨ ∃ h, hi.at c = .some h ∧ X.get i c < h)
    {g : GroupGrid} (hg : generateGrid Xs lo hi m ad = .ok g) (k : ℕ) (hk : k < ad.length) :
    (∀ u ∈ colValues Xs lo (ad.getD k 0), (g.axes.getD k []).getD 1 0 ≤ u) ∧
    (∀ u ∈ colValues Xs hi (ad.getD k 0), u ≤ (g.axes.getD k []).getD ((g.axes.getD k []).length - 2) 0) ∧
    ∃ L ∈ colValues Xs lo (ad.getD k 0), ∃ H ∈ colValues Xs hi (ad.getD k 0), ∃ kk : ℕ, 0 < kk ∧ cellsOf Xs m (ad.getD k 0) kk ∧
      FineAxis (5 / 4 * ((H - L) / kk)) (g.axes.getD k []) ∧ (∀ u ∈ colValues Xs lo (ad.getD k 0), L ≤ u) ∧ (∀ u ∈ colValues Xs hi (ad.getD k 0), u ≤ H) ∧
      g.axes.getD k [] = linspace (L - 2 * ((H - L) / kk)) (H + 2 * ((H - L) / kk)) (kk + 4) := by
  obtain ⟨wlo, l1, l2, l3, l4⟩ := wrapOpt_ok (hs lo (by simp)) (hv lo (by simp)) had
  obtain ⟨whi, h1, h2, h3, h4⟩ := wrapOpt_ok (hs hi (by simp)) (hv hi (by simp)) had
  obtain ⟨wm, m1, m2, m3, m4⟩ := wrapOpt_ok (hs m (by simp)) (hv m (by simp)) had
  have hadk : ∀ k < ad.length, ad.getD k 0 < P := fun k hk => had _ (getD_mem_of_lt hk 0)
  set Xa := Xs.map fun X => Arr2.of X.rows ad.length fun i k => X.get i (ad.getD k 0) with hXa
  have hmemXa : ∀ X ∈ Xs, (Arr2.of X.rows ad.length fun i k => X.get i (ad.getD k 0)) ∈ Xa := fun X hX' => List.mem_map.2 ⟨X, hX', rfl⟩
  have hget : ∀ X : Arr2 ℝ, ∀ i < X.rows, ∀ k < ad.length, (Arr2.of X.rows ad.length fun i k => X.get i (ad.getD k 0)).get i k = X.get i (ad.getD k 0) :=
    fun X i hi k hk => Arr2.of_get hi hk
  obtain ⟨r, r1, r2, r3⟩ := C21_autogrid_brackets Xa ad.length wlo whi wm (by simpa [hXa] using hne)
    (by intro X hX'; obtain ⟨Y, hY, rfl⟩ := List.mem_map.1 hX'; exact ⟨(hX Y hY).1, rfl⟩) l2 h2 m2
    (by
      intro v hv k hk'
      exact hm _ (hadk k hk') _ (m3 v hv k hk'))
    (by
      intro k hk'
      obtain ⟨X, hX1, i, hi', hor⟩ := hsp _ (hadk k hk')
      refine ⟨_, hmemXa X hX1, i, hi', ?_⟩
      rw [hget X i hi' k hk']
      rcases hor with ⟨X', hX2, i', hi2, hlt⟩ | ⟨l, hl, hlt⟩ | ⟨h, hh, hlt⟩
      · exact .inl ⟨_, hmemXa X' hX2, i', hi2, by rw [hget X' i' hi2 k hk']; exact hlt⟩
      · obtain ⟨v, hv'⟩ := l4 _ _ hl
        have := l3 v hv' k hk'
        rw [hl] at this
        exact .inr (.inl ⟨v, hv', by rw [← Option.some.inj this]; exact hlt⟩)
      · obtain ⟨v, hv'⟩ := h4 _ _ hh
        have := h3 v hv' k hk'
        rw [hh] at this
        exact .inr (.inr ⟨v, hv', by rw [← Option.some.inj this]; exact hlt⟩))
  have hax : g.axes = r.grids := by
    unfold generateGrid at hg
    rw [l1, h1, m1, takeCols_all (fun X hX' => (hX X hX').2) had] at hg
    simp only [ok_bind] at hg
    rw [← hXa, r1] at hg
    simp only [ok_bind, bind_ok, pure_ok] at hg
    obtain ⟨d, -, W, -, rfl⟩ := hg
    rfl
  rw [hax]
  have val : ∀ {o : GridOpt} {w : GridArg}, (∀ v, w.vals = some v → ∀ k < ad.length, o.at (ad.getD k 0) = some (v.getD k 0)) →
      ∀ x, x ∈ valuesAlong Xa w k → x ∈ colValues Xs o (ad.getD k 0) := by
    rintro o w h x (⟨X, hX', i, hi', rfl⟩ | ⟨v, hv', rfl⟩)
    · obtain ⟨Y, hY, rfl⟩ := List.mem_map.1 hX'
      exact .inl ⟨Y, hY, i, hi', (hget Y i hi' k hk).symm⟩
    · exact .inr (h v hv' k hk)
  obtain ⟨A, hA, g0, d, kk, hd, he, hcells, hlen, hin, hlo', hhi', L, H, hL, hH, hfirst, hlast⟩ := r3 k hk
  rw [← hA]
  have hkk : 0 < kk ∧ cellsOf Xs m (ad.getD k 0) kk := by
    unfold cellsFor at hcells
    unfold cellsOf
    cases hw : wm.vals with
    | none =>
      rw [hw] at hcells
      simp only at hcells
      have hrows : (Xa.map Arr2.rows).sum / Xa.length = (Xs.map Arr2.rows).sum / Xs.length := by
        rw [hXa, List.map_map, List.length_map]
        rfl
      have : m.at (ad.getD k 0) = none := by
        cases hmm : m.at (ad.getD k 0) with
        | none => rfl
        | some x =>
          obtain ⟨v, hv'⟩ := m4 _ _ hmm
          rw [hv'] at hw
          cases hw
      rw [this]
      simp only
      rw [hcells, hrows]
      refine ⟨?_, rfl⟩
      have : ∀ l : List (Arr2 ℝ), (∀ X ∈ l, 0 < X.rows) → l.length ≤ (l.map Arr2.rows).sum := by
        intro l hl
        induction l with
        | nil => simp
        | cons X l ih =>
          have h1 := ih fun Y hY => hl Y (by simp [hY])
          have h2 := hl X (by simp)
          simp only [List.length_cons, List.map_cons, List.sum_cons]; omega
      exact Nat.div_pos (this Xs fun X hX' => (hX X hX').1) (List.length_pos_iff.2 hne)
    | some v =>
      rw [hw] at hcells
      simp only at hcells
      have := m3 v hw k hk
      rw [this]
      obtain ⟨k', k0, e⟩ := hm _ (hadk k hk) _ this
      simp only
      rw [hcells] at e ⊢
      have : kk = k' := by exact_mod_cast e
      exact ⟨by omega, rfl⟩
  have lav : ∀ {o : GridOpt} {w : GridArg}, (∀ v, w.vals = some v → ∀ k < ad.length, o.at (ad.getD k 0) = some (v.getD k 0)) →
      (∀ c x, o.at c = some x → ∃ v, w.vals = some v) → ∀ x, x ∈ colValues Xs o (ad.getD k 0) → x ∈ valuesAlong Xa w k := by
    rintro o w h h' x (⟨X, hX', i, hi', rfl⟩ | hu)
    · exact .inl ⟨_, hmemXa X hX', i, hi', hget X i hi' k hk⟩
    · obtain ⟨v, hv'⟩ := h' _ _ hu
      have e := h v hv' k hk
      rw [hu] at e
      exact .inr ⟨v, hv', (Option.some.inj e).symm⟩
  refine ⟨?_, ?_, L, val l3 L hL.1, H, val h3 H hH.1, kk, hkk.1, hkk.2, equispaced_fine hkk.1 hd he hlen hfirst hlast, fun u hu => hL.2 (lav l3 l4 u hu),
    fun u hu => hH.2 (lav h3 h4 u hu), ?_⟩
  · rintro u (⟨X, hX', i, hi', rfl⟩ | hu)
    · have := (hin _ (hmemXa X hX') i hi').1
      rwa [hget X i hi' k hk] at this
    · obtain ⟨v, hv'⟩ := l4 _ _ hu
      have e := l3 v hv' k hk
      rw [hu] at e
      rw [Option.some.inj e]
      exact hlo' v hv'
  · rintro u (⟨X, hX', i, hi', rfl⟩ | hu)
    · have := (hin _ (hmemXa X hX') i hi').2.1.le
      rwa [hget X i hi' k hk] at this
    · obtain ⟨v, hv'⟩ := h4 _ _ hu
      have e := h3 v hv' k hk
      rw [hu] at e
      rw [Option.some.inj e]
      exact hhi' v hv'
  · rw [he 0 (by omega)] at hfirst
    rw [he _ (by omega), hlen] at hlast
    refine List.ext_getElem (by rw [hlen]; simp [linspace]) fun j hj1 hj2 => ?_
    rw [← getD_getElem 0 hj1, ← getD_getElem 0 hj2, he j hj1]
    unfold linspace
    have e4 : ((kk + 4 : ℕ) : ℝ) - 1 = kk + 3 := by push_cast; ring
    have e3 : ((kk + 4 - 1 : ℕ) : ℝ) = kk + 3 := by rw [show kk + 4 - 1 = kk + 3 by omega]; push_cast; ring
    rw [vmk_getD_lt (by omega), e4, ← hfirst, ← hlast, e3]
    have : (kk : ℝ) + 3 ≠ 0 := by positivity
    field_simp
    push_cast
    ring

theorem mapExcept_mem {α β : Type} {f : α → Except PyErr β} : ∀ {l : List α} {ys : List β}, mapExcept f l = .ok ys → ∀ y ∈ ys, ∃ x ∈ l, f x = .ok y
  | [], ys, h, y, hy => by
    cases h
    simp at hy
  | a :: l, ys, h, y, hy => by
    unfold mapExcept at h
    simp only [bind_ok, pure_ok] at h
    obtain ⟨b, h1, bs, h2, rfl⟩ := h
    rcases List.mem_cons.1 hy with rfl | hy
    · exact ⟨a, by simp, h1⟩
    · obtain ⟨x, hx, e⟩ := mapExcept_mem h2 y hy
      exact ⟨x, by simp [hx], e⟩

/-- the grids of a model are those `generateGrid` makes -/
theorem init_grid {a : LLGPArgs} {P : ℕ} {fk : FK} (hd : a.Documented P fk) (hP : 0 < P) {m : LLGP} (hm : llgpInit a = .ok m) {g : List ℕ × List ℕ}
    (hg : g ∈ m.fk.activeDims) : ∃ gg, generateGrid (padded P a.Xs) a.lo a.hi a.m g.1 = .ok gg ∧ m.axesOf g.1 = gg.axes := by
  obtain ⟨m', fk', h1, h2, h3, h4, h5⟩ := llgpInit_documented hd hP
  rw [hm] at h1
  cases h1
  obtain ⟨gg, -, d2, -, d4⟩ := h2.mem_grids hg
  refine ⟨gg, ?_, d4⟩
  rw [← h5]
  unfold llgpInit at hm
  rw [bind_ok] at hm
  obtain ⟨gp, h6, hm⟩ := hm
  rw [hd.kernel] at hm
  cases hp : predMode a.prediction with
  | none => rw [hp] at hm; cases hm
  | some mode =>
    rw [hp] at hm
    simp only [bind_ok, pure_ok] at hm
    obtain ⟨fk'', -, grids, h7, rfl⟩ := hm
    obtain ⟨ad, -, h8⟩ := mapExcept_mem h7 _ d2
    simp only [bind_ok, pure_ok] at h8
    obtain ⟨g', h9, h10⟩ := h8
    cases h10
    exact h9

theorem documented_group {a : LLGPArgs} {P : ℕ} {fk : FK} (hd : a.Documented P fk) (hP : 0 < P) {m : LLGP} (hm : llgpInit a = .ok m) {g : List ℕ × List ℕ}
    (hg : g ∈ m.fk.activeDims) : ∃ k ∈ fk.kernels, dimsRead P k = g.1 := by
  obtain ⟨m', fk', h1, h2, h3, h4, h5⟩ := llgpInit_documented hd hP
  rw [hm] at h1
  cases h1
  obtain ⟨fk'', f1, f2⟩ := setInputDim_fresh fk P hd.fresh
  rw [h3] at f1
  cases f1
  rw [h4] at hg
  obtain ⟨h1, h2⟩ := (f2.mem g.1 g.2).1 hg
  obtain ⟨i, hi⟩ := List.exists_mem_of_ne_nil _ h2
  rw [h1] at hi
  unfold FK.groupOf at hi
  rw [List.mem_filter, List.mem_range] at hi
  exact ⟨_, getD_mem_of_lt hi.1 _, by simpa using hi.2⟩

theorem init_covers {a : LLGPArgs} {P : ℕ} {fk : FK} (hd : a.Documented P fk) (hP : 0 < P) {m : LLGP} (hm : llgpInit a = .ok m) {g : List ℕ × List ℕ}
    (hg : g ∈ m.fk.activeDims) (k : ℕ) (hk : k < g.1.length) :
    (∀ u ∈ colValues (padded P a.Xs) a.lo (g.1.getD k 0), ((m.axesOf g.1).getD k []).getD 1 0 ≤ u) ∧
    (∀ u ∈ colValues (padded P a.Xs) a.hi (g.1.getD k 0), u ≤ ((m.axesOf g.1).getD k []).getD (((m.axesOf g.1).getD k []).length - 2) 0) ∧
    ∃ L ∈ colValues (padded P a.Xs) a.lo (g.1.getD k 0), ∃ H ∈ colValues (padded P a.Xs) a.hi (g.1.getD k 0), ∃ kk : ℕ, 0 < kk ∧
      cellsOf (padded P a.Xs) a.m (g.1.getD k 0) kk ∧ FineAxis (5 / 4 * ((H - L) / kk)) ((m.axesOf g.1).getD k []) ∧
      (∀ u ∈ colValues (padded P a.Xs) a.lo (g.1.getD k 0), L ≤ u) ∧ (∀ u ∈ colValues (padded P a.Xs) a.hi (g.1.getD k 0), u ≤ H) ∧
      (m.axesOf g.1).getD k [] = linspace (L - 2 * ((H - L) / kk)) (H + 2 * ((H - L) / kk)) (kk + 4) := by
  obtain ⟨gg, e1, e2⟩ := init_grid hd hP hm hg
  obtain ⟨m', fk', h1, h2, h3, h4, h5⟩ := llgpInit_documented hd hP
  rw [hm] at h1
  cases h1
  obtain ⟨kk, hkk, hdr⟩ := documented_group hd hP hm hg
  rw [e2]
  have hsc : ∀ o : GridOpt, o.Fits fk P → (∀ v, o = .scalar v → g.1.length = 1) ∧ ∀ v, o = .vec v → v.length = P := by
    intro o ho
    constructor
    · rintro v rfl; rw [← hdr]; exact ho kk hkk
    · rintro v rfl; exact ho
  refine generateGrid_covers (P := P) (by simpa [padded] using hd.data.nonempty) (fun X hX => ⟨h2.filled X (by rw [h5]; exact hX), ?_⟩) ?_ ?_
    (by rw [← hdr]; exact (hd.dims kk hkk).2) hd.sizes hd.spread e1 k hk
  · obtain ⟨Y, -, rfl⟩ := List.mem_map.1 hX
    rfl
  · intro o ho
    simp only [List.mem_cons, List.not_mem_nil, or_false] at ho
    rcases ho with rfl | rfl | rfl
    · exact (hsc _ hd.lo).1
    · exact (hsc _ hd.hi).1
    · exact (hsc _ hd.m).1
  · intro o ho
    simp only [List.mem_cons, List.not_mem_nil, or_false] at ho
    rcases ho with rfl | rfl | rfl
    · exact (hsc _ hd.lo).2
    · exact (hsc _ hd.hi).2
    · exact (hsc _ hd.m).2

theorem FineAxis.mono {h h' : ℝ} {a : List ℝ} (H : FineAxis h a) (hh : h ≤ h') : FineAxis h' a := by
  obtain ⟨h4, g0, d, hd, hdh, he⟩ := H
  exact ⟨h4, g0, d, hd, hdh.trans hh, he⟩

theorem init_dims {a : LLGPArgs} {P : ℕ} {fk : FK} (hd : a.Documented P fk) (hP : 0 < P) {m : LLGP} (hm : llgpInit a = .ok m) {g : List ℕ × List ℕ}
    (hg : g ∈ m.fk.activeDims) {k : ℕ} (hk : k < g.1.length) : g.1.getD k 0 < P := by
  obtain ⟨kk, hkk, hdr⟩ := documented_group hd hP hm hg
  refine (hd.dims kk hkk).2 _ ?_
  rw [hdr]
  exact getD_mem_of_lt hk 0

/-- how fine the grids are -/
theorem init_fine {a : LLGPArgs} {P : ℕ} {fk : FK} (hd : a.Documented P fk) (hP : 0 < P) {m : LLGP} (hm : llgpInit a = .ok m) {w : ℝ} (hw : a.Width P w)
    {N : ℕ} (hN : a.Cells P N) (hN0 : 0 < N) : m.fk.FineGrids (5 / 4 * (w / N)) m.axesOf := by
  intro g hg
  obtain ⟨m', fk', h1, h2, -⟩ := llgpInit_documented hd hP
  rw [hm] at h1
  cases h1
  obtain ⟨gg, -, -, d3, d4⟩ := h2.mem_grids hg
  have hlen : (m.axesOf g.1).length = g.1.length := by rw [d4, d3.axes]
  refine ⟨hlen, fun A hA => ?_⟩
  obtain ⟨k, hk, rfl⟩ := mem_getD hA []
  rw [hlen] at hk
  obtain ⟨-, -, L, hL, H, hH, kk, k0, hc, hf, -⟩ := init_covers hd hP hm hg k hk
  refine hf.mono ?_
  have hcP := init_dims hd hP hm hg hk
  have h1 := hw _ hcP L hL H hH
  have h2 : (N : ℝ) ≤ kk := by exact_mod_cast hN _ hcP kk hc
  have h3 : (0 : ℝ) < N := by exact_mod_cast hN0
  have h4 : 0 ≤ H - L := by
    obtain ⟨-, g0, d, hd0, hdh, -⟩ := hf
    by_contra hn
    have : (H - L) / kk ≤ 0 := div_nonpos_of_nonpos_of_nonneg (by linarith) (by positivity)
    linarith
  have h5 : (H - L) / kk ≤ w / N := div_le_div₀ (h4.trans h1) h1 h3 h2
  linarith

/-- points between the inputs are inside the grids -/
theorem init_inside {a : LLGPArgs} {P : ℕ} {fk : FK} (hd : a.Documented P fk) (hP : 0 < P) {m : LLGP} (hm : llgpInit a = .ok m) {x : ℕ → ℝ}
    (hx : a.Surrounds P x) : m.fk.Inside m.axesOf x := by
  intro g hg k hk
  obtain ⟨h1, h2, -⟩ := init_covers hd hP hm hg k hk
  obtain ⟨⟨u, hu, hux⟩, v, hv, hxv⟩ := hx _ (init_dims hd hP hm hg hk)
  exact ⟨(h1 u hu).trans hux, hxv.trans (h2 v hv)⟩

end Verif
