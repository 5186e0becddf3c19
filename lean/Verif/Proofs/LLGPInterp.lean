import Verif.Spec.LLGP
import Verif.Props.Interp2
import Verif.Props.Likelihood
import Verif.Props.Predict

/-! What `multi_interpolant` builds, in terms of `gridWeight`. -/

namespace Verif

theorem clampTo_eq (m : ℕ) (c : ℤ) : clampTo m c = clampIdx m c := by
  unfold clampTo clampIdx
  simp only
  split_ifs <;> omega

theorem keysWeight_eq (grid : List ℝ) (s : ℝ) (j : ℕ) : keysWeight grid s j = interpRow grid.length (interpFactor grid s) j := by
  have key : ∀ c ∈ convWindow, ∀ f : ℝ, cubicEntry (f - ⌊f⌋ + c) = keys (f - (⌊f⌋ + ((-c : ℤ) : ℝ))) := by
    intro c hc f
    rw [cubicEntry_eq_keys (frac_le hc)]
    congr 1
    push_cast
    ring
  unfold keysWeight
  rw [interpRow_eq]
  simp only [interpW, ← clampTo_eq]
  change (List.map _ _).sum = _
  have e : (grid.getD 0 0) = grid.getD 0 0 := rfl
  rw [show (s - grid.getD 0 0) / (grid.getD 1 0 - grid.getD 0 0) = interpFactor grid s from rfl]
  generalize interpFactor grid s = f
  rw [key (-2) (by simp [convWindow]), key (-1) (by simp [convWindow]), key 0 (by simp [convWindow]), key 1 (by simp [convWindow])]
  simp only [List.map_cons, List.map_nil, List.sum_cons, List.sum_nil, sub_neg_eq_add, sub_zero, neg_neg, neg_zero, add_zero]
  rw [show ⌊f⌋ + -1 = ⌊f⌋ - 1 by ring]
  ring

theorem gridWeight_congr : ∀ (axes : List (List ℝ)) {x x' : ℕ → ℝ} (p : ℕ), (∀ k < axes.length, x k = x' k) → gridWeight axes x p = gridWeight axes x' p
  | [], _, _, _, _ => rfl
  | a :: axes, x, x', p, h => by
    rw [gridWeight, gridWeight, h 0 (by simp), gridWeight_congr axes _ fun k hk => h (k + 1) (by simpa using hk)]

theorem blockDiag_entry {m : ℕ} {Ws : List Csr} {R : Csr} (hR : IsBlockDiag m Ws R) {lens : List ℕ} (hl : Ws.map Csr.rows = lens)
    {w : ℕ → ℕ → ℕ → ℝ} (hw : ∀ b (hb : b < Ws.length), ∀ i < Ws[b].rows, ∀ p < m, Ws[b].get i p = w b i p) {r j : ℕ} (hr : r < lens.sum)
    (hj : j < Ws.length * m) : R.get r j = if j / m = ownerOf lens r then w (ownerOf lens r) (innerIdx lens r) (j % m) else 0 := by
  have hb := ownerOf_lt lens r hr
  obtain ⟨h1, h2⟩ := offset_owner hr
  have hm : 0 < m := by
    rcases Nat.eq_zero_or_pos m with h | h
    · subst h; omega
    · exact h
  have hb' : ownerOf lens r < Ws.length := by rw [← hl, List.length_map] at hb; rw [← hl]; exact hb
  have hi : innerIdx lens r < Ws[ownerOf lens r].rows := by
    have e : lens.getD (ownerOf lens r) 0 = Ws[ownerOf lens r].rows := by
      rw [List.getD_eq_getElem _ _ hb]
      simp only [← hl, List.getElem_map]
    omega
  have := hR.2.2 _ hb' _ hi j hj
  rw [hl] at this
  unfold offset at h1
  rw [h1] at this
  rw [this]
  split
  · rw [hw _ hb' _ hi _ (Nat.mod_lt _ hm)]
  · rfl

theorem forall₂_rows {Xs : List (Arr2 ℝ)} {Ws : List Csr} {Q : NDArr ℝ → Csr → Prop}
    (h : List.Forall₂ Q (Xs.map Arr2.nd) Ws) (hQ : ∀ X ∈ Xs, ∀ W, Q X.nd W → W.rows = X.rows) : Ws.map Csr.rows = Xs.map Arr2.rows := by
  induction Xs generalizing Ws with
  | nil => simp only [List.map_nil, List.forall₂_nil_left_iff] at h; subst h; rfl
  | cons X Xs ih =>
    rw [List.map_cons, List.forall₂_cons_left_iff] at h
    obtain ⟨W, Ws', h1, h2, rfl⟩ := h
    rw [List.map_cons, List.map_cons, hQ X (by simp) W h1, ih h2 fun Y hY => hQ Y (by simp [hY])]

theorem forall₂_get {Xs : List (Arr2 ℝ)} {Ws : List Csr} {Q : NDArr ℝ → Csr → Prop} (h : List.Forall₂ Q (Xs.map Arr2.nd) Ws) {b : ℕ} (hb : b < Ws.length) :
    ∃ hb' : b < Xs.length, Q Xs[b].nd Ws[b] := by
  have hl : Xs.length = Ws.length := by rw [← h.length_eq, List.length_map]
  refine ⟨by omega, ?_⟩
  have := h.get (i := b) (by simp; omega) hb
  simpa using this

theorem nd_shape (X : Arr2 ℝ) : X.nd.shape = [X.rows, X.cols] := rfl

/-- what `multi_interpolant` returns for one- and two-dimensional grids -/
theorem multiInterp_weights {axes : List (List ℝ)} (hk : axes.length = 1 ∨ axes.length = 2) (h4 : ∀ a ∈ axes, 4 ≤ a.length) {Xs : List (Arr2 ℝ)}
    (hne : Xs ≠ []) (hwf : ∀ X ∈ Xs, X.WF) (hcols : ∀ X ∈ Xs, X.cols = axes.length) :
    ∃ R, multiInterpolant (Xs.map Arr2.nd) (axes.map NDArr.vec) = .ok R ∧ R.rows = (Xs.map Arr2.rows).sum ∧
      R.cols = Xs.length * (axes.map List.length).prod ∧
      ∀ r < R.rows, ∀ j < R.cols, R.get r j = interpEntry axes (ownerOf (Xs.map Arr2.rows)) (rowPoint Xs) r j := by
  rcases hk with hk | hk
  · obtain ⟨g, rfl⟩ := List.length_eq_one_iff.1 hk
    have hg : 4 ≤ g.length := h4 g (by simp)
    obtain ⟨Ws, R, e, -, hbd, hf⟩ := C20_multi_interpolant (Xs.map Arr2.nd) g (by simpa using hne) hg (by
      intro X hX
      obtain ⟨Y, hY, rfl⟩ := List.mem_map.1 hX
      right
      have hc := hcols Y hY
      have hw := hwf Y hY
      simp only [List.length_cons, List.length_nil, zero_add] at hc
      rw [Arr2.WF, hc, mul_one] at hw
      rw [nd_shape, hc, ← hw]
      rfl)
    have hdata : ∀ X ∈ Xs, X.data.length = X.rows := by
      intro Y hY
      have hc := hcols Y hY
      have hw := hwf Y hY
      simp only [List.length_cons, List.length_nil, zero_add] at hc
      rwa [Arr2.WF, hc, mul_one] at hw
    have hrows := forall₂_rows hf (fun X hX W hW => hW.2.trans (hdata X hX))
    have hlen : Ws.length = Xs.length := by have := congrArg List.length hrows; simpa using this
    refine ⟨R, e, by rw [hbd.1, hrows], by rw [hbd.2.1, hlen]; simp, fun r hr j hj => ?_⟩
    rw [hbd.1, hrows] at hr
    rw [hbd.2.1] at hj
    rw [blockDiag_entry hbd hrows (w := fun b i p => gridWeight [g] (pointOf Xs b i) p) ?_ hr hj]
    · unfold interpEntry rowPoint
      simp
    · intro b hb i hi p hp
      obtain ⟨hb', h1, h2⟩ := forall₂_get hf hb
      rw [interpCubic_eq hg] at h1
      simp only [Except.ok.injEq] at h1
      have hX := hdata _ (List.getElem_mem hb')
      rw [← h1, Csr.ofFn_get (by rw [← h1, Csr.ofFn_rows] at hi; exact hi) hp]
      unfold gridWeight gridWeight
      rw [keysWeight_eq]
      simp only [List.map_nil, List.prod_nil, Nat.div_one, mul_one]
      congr 2
      unfold pointOf Arr2.get
      rw [List.getD_eq_getElem _ _ hb', hcols _ (List.getElem_mem hb')]
      simp [Arr2.nd]
  · obtain ⟨gx, gy, rfl⟩ := List.length_eq_two.1 hk
    have hx : 4 ≤ gx.length := h4 gx (by simp)
    have hy : 4 ≤ gy.length := h4 gy (by simp)
    obtain ⟨Ws, R, e, -, hbd, hf⟩ := C20_multi_interpolant_2d (Xs.map Arr2.nd) gx gy (by simpa using hne) hx hy (fun X => X.shape.headD 0) (by
      intro X hX
      obtain ⟨Y, hY, rfl⟩ := List.mem_map.1 hX
      rw [nd_shape, hcols Y hY]
      rfl)
    have hrows := forall₂_rows hf (fun X hX W hW => hW.2.trans rfl)
    have hlen : Ws.length = Xs.length := by have := congrArg List.length hrows; simpa using this
    refine ⟨R, e, by rw [hbd.1, hrows], by rw [hbd.2.1, hlen]; simp, fun r hr j hj => ?_⟩
    rw [hbd.1, hrows] at hr
    rw [hbd.2.1] at hj
    rw [blockDiag_entry hbd hrows (w := fun b i p => gridWeight [gx, gy] (pointOf Xs b i) p) ?_ hr hj]
    · unfold interpEntry rowPoint
      simp
    · intro b hb i hi p hp
      obtain ⟨hb', h1, h2⟩ := forall₂_get hf hb
      have hc : Xs[b].cols = 2 := hcols _ (List.getElem_mem hb')
      have e2 : Xs[b].nd = ⟨[Xs[b].rows, 2], Xs[b].data⟩ := by unfold Arr2.nd; rw [hc]
      rw [e2, interpBicubic_eq hx hy] at h1
      simp only [Except.ok.injEq] at h1
      rw [← h1, Csr.ofFn_get (by rw [← h1, Csr.ofFn_rows] at hi; exact hi) hp]
      unfold gridWeight gridWeight gridWeight
      rw [keysWeight_eq, keysWeight_eq]
      simp only [List.map_nil, List.prod_nil, Nat.div_one, mul_one, List.map_cons, List.prod_cons]
      congr 3 <;>
      · unfold pointOf Arr2.get
        rw [List.getD_eq_getElem _ _ hb', hc]
        try simp

theorem takeCols_ok {X : Arr2 ℝ} {ad : List ℕ} (h : ∀ c ∈ ad, c < X.cols) : takeCols X ad = .ok (Arr2.of X.rows ad.length fun i k => X.get i (ad.getD k 0)) := if_pos h

theorem takeCols_all {P : ℕ} {Xs : List (Arr2 ℝ)} {ad : List ℕ} (hc : ∀ X ∈ Xs, X.cols = P) (h : ∀ c ∈ ad, c < P) :
    mapExcept (fun X => takeCols X ad) Xs = .ok (Xs.map fun X => Arr2.of X.rows ad.length fun i k => X.get i (ad.getD k 0)) :=
  mapExcept_ok fun X hX => takeCols_ok (by rw [hc X hX]; exact h)

/-- what `multi_interpolant` returns for the columns `ad` of some inputs -/
theorem interp_cols {axes : List (List ℝ)} {ad : List ℕ} (hlen : axes.length = ad.length) (hk : ad.length = 1 ∨ ad.length = 2)
    (h4 : ∀ a ∈ axes, 4 ≤ a.length) {Xs : List (Arr2 ℝ)} (hne : Xs ≠ []) :
    ∃ R, multiInterpolant ((Xs.map fun X => Arr2.of X.rows ad.length fun i k => X.get i (ad.getD k 0)).map Arr2.nd) (axes.map NDArr.vec) = .ok R ∧
      R.dense = Arr2.of (Xs.map Arr2.rows).sum (Xs.length * (axes.map List.length).prod) (interpOf ad axes Xs) := by
  have hr : ((Xs.map fun X => Arr2.of X.rows ad.length fun i k => X.get i (ad.getD k 0)).map Arr2.rows) = Xs.map Arr2.rows := by
    rw [List.map_map]; rfl
  obtain ⟨R, e, r1, r2, r3⟩ := multiInterp_weights (axes := axes) (by rw [hlen]; exact hk) h4
    (Xs := Xs.map fun X => Arr2.of X.rows ad.length fun i k => X.get i (ad.getD k 0)) (by simpa using hne)
    (by intro X hX; obtain ⟨Y, -, rfl⟩ := List.mem_map.1 hX; exact Arr2.of_wf _ _ _)
    (by intro X hX; obtain ⟨Y, -, rfl⟩ := List.mem_map.1 hX; exact hlen.symm)
  refine ⟨R, e, ?_⟩
  rw [hr] at r1 r3
  rw [List.length_map] at r2
  unfold Csr.dense
  rw [r1, r2]
  refine Arr2.of_congr fun r hr' j hj => ?_
  rw [r3 r (by rw [r1]; exact hr') j (by rw [r2]; exact hj)]
  unfold interpOf interpEntry
  congr 1
  refine gridWeight_congr _ _ fun k hk' => ?_
  unfold rowPoint pointOf coords
  rw [hr]
  have hb := ownerOf_lt _ r hr'
  rw [List.length_map] at hb
  obtain ⟨o1, o2⟩ := offset_owner hr'
  rw [map_getD_lt hb Arr2.rows 0 ⟨0, 0, []⟩] at o2
  have e := map_getD_lt hb (fun X : Arr2 ℝ => Arr2.of X.rows ad.length fun i k => X.get i (ad.getD k 0)) ⟨0, 0, []⟩ ⟨0, 0, []⟩
  refine (congrArg (fun A : Arr2 ℝ => A.get (innerIdx (Xs.map Arr2.rows) r) k) e).trans ?_
  exact Arr2.of_get o2 (by rw [← hlen]; exact hk')

end Verif
