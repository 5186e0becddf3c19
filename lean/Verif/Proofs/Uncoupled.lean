import Verif.Spec.Uncoupled
import Verif.Proofs.Reordered

/-! Lemmas for C84: outputs without covariance with the others. -/

namespace Verif

open Matrix

theorem quadratic_part {n n' : ℕ} {ι : Fin n → Fin n'} (hι : Function.Injective ι) {K : Matrix (Fin n) (Fin n) ℝ} {K' : Matrix (Fin n') (Fin n') ℝ}
    (hK' : K'.PosDef) (hsub : ∀ i j, K i j = K' (ι i) (ι j)) (h0 : ∀ i, ∀ j ∉ Set.range ι, K' (ι i) j = 0) {u v : Fin n → ℝ} {u' v' : Fin n' → ℝ} (hu : ∀ i, u i = u' (ι i))
    (hu0 : ∀ j ∉ Set.range ι, u' j = 0) (hv : ∀ i, v i = v' (ι i)) : u' ⬝ᵥ K'⁻¹ *ᵥ v' = u ⬝ᵥ K⁻¹ *ᵥ v := by
  have eK : K = K'.submatrix ι ι := by ext i j; exact hsub i j
  have hK : K.PosDef := by rw [eK]; exact hK'.submatrix hι
  set w := K'⁻¹ *ᵥ v' with hw
  have hKw : K' *ᵥ w = v' := by
    rw [hw, Matrix.mulVec_mulVec, Matrix.mul_nonsing_inv _ ((Matrix.isUnit_iff_isUnit_det _).1 hK'.isUnit), Matrix.one_mulVec]
  have h1 : K *ᵥ (fun i => w (ι i)) = v := by
    funext i
    rw [hv i, ← congrFun hKw (ι i)]
    refine Fintype.sum_of_injective ι hι _ _ (fun j hj => ?_) fun j => ?_
    · show K' (ι i) j * w j = 0
      rw [h0 i j hj, zero_mul]
    · show K i j * w (ι j) = K' (ι i) (ι j) * w (ι j)
      rw [hsub i j]
  have h2 : K⁻¹ *ᵥ v = fun i => w (ι i) := by
    rw [← h1, Matrix.mulVec_mulVec, Matrix.nonsing_inv_mul _ ((Matrix.isUnit_iff_isUnit_det _).1 hK.isUnit), Matrix.one_mulVec]
  rw [h2]
  refine (Fintype.sum_of_injective ι hι _ _ (fun j hj => ?_) fun j => ?_).symm
  · show u' j * w j = 0
    rw [hu0 j hj, zero_mul]
  · show u j * w (ι j) = u' (ι j) * w (ι j)
    rw [hu j]

/-- the inputs of the outputs in `S`, nothing for the others -/
def partOf (S : Finset ℕ) (Xs : List (Arr2 ℝ)) : List (Arr2 ℝ) := Xs.mapIdx fun d X => if d ∈ S then X else ⟨0, X.cols, []⟩

theorem partOf_length (S : Finset ℕ) (Xs : List (Arr2 ℝ)) : (partOf S Xs).length = Xs.length := by unfold partOf; simp

theorem partOf_getD (S : Finset ℕ) {Xs : List (Arr2 ℝ)} {d : ℕ} (hd : d < Xs.length) (X0 : Arr2 ℝ) : (partOf S Xs).getD d X0 = if d ∈ S then Xs.getD d X0 else ⟨0, (Xs.getD d X0).cols, []⟩ := by
  unfold partOf
  rw [List.getD_eq_getElem _ _ (by simpa using hd), List.getElem_mapIdx, List.getD_eq_getElem _ _ hd]

theorem rows_getD {Xs : List (Arr2 ℝ)} (d : ℕ) : (Xs.map Arr2.rows).getD d 0 = (Xs.getD d ⟨0, 0, []⟩).rows := by
  by_cases h : d < Xs.length
  · rw [map_getD_lt h _ _ ⟨0, 0, []⟩]
  · rw [List.getD_eq_default _ _ (by simp; omega), List.getD_eq_default _ _ (by omega)]

/-- the rows of a part, with their owners and places -/
theorem part_rows (P : ℕ) (S : Finset ℕ) (Xs : List (Arr2 ℝ)) : ∃ ι, RowsWithin P (partOf S Xs) Xs ι ∧
    (∀ r, (ι r : ℕ) = offset (Xs.map Arr2.rows) (ownerOf ((partOf S Xs).map Arr2.rows) r) + innerIdx ((partOf S Xs).map Arr2.rows) r) ∧
    (∀ r : Fin ((partOf S Xs).map Arr2.rows).sum, ownerOf ((partOf S Xs).map Arr2.rows) r ∈ S ∧
      innerIdx ((partOf S Xs).map Arr2.rows) r < (Xs.map Arr2.rows).getD (ownerOf ((partOf S Xs).map Arr2.rows) r) 0) ∧
    ∀ j ∉ Set.range ι, ownerOf (Xs.map Arr2.rows) j ∉ S := by
  have hrow : ∀ d < Xs.length, ((partOf S Xs).map Arr2.rows).getD d 0 = if d ∈ S then (Xs.map Arr2.rows).getD d 0 else 0 := fun d hd => by
    rw [rows_getD, rows_getD, partOf_getD S hd]
    split_ifs <;> rfl
  obtain ⟨ι, h1, h2⟩ := rows_within (P := P) (Xs := partOf S Xs) (Xs' := Xs) (partOf_length S Xs).symm (fun _ i => i) (fun d hd => by
    rw [partOf_length] at hd
    rw [hrow d hd]
    split_ifs with hS
    · refine ⟨fun i hi => ⟨hi, fun c _ => ?_⟩, fun i _ j _ h => h⟩
      unfold pointOf
      rw [partOf_getD S hd, if_pos hS]
    · exact ⟨fun i hi => by omega, fun i hi => by omega⟩)
  have hin : ∀ r : Fin ((partOf S Xs).map Arr2.rows).sum, ownerOf ((partOf S Xs).map Arr2.rows) r ∈ S ∧
      innerIdx ((partOf S Xs).map Arr2.rows) r < (Xs.map Arr2.rows).getD (ownerOf ((partOf S Xs).map Arr2.rows) r) 0 := fun r => by
    have hi := innerIdx_lt _ r.2
    have ho := ownerOf_lt _ _ r.2
    rw [List.length_map, partOf_length] at ho
    rw [hrow _ ho] at hi
    split_ifs at hi with hS
    · exact ⟨hS, hi⟩
    · omega
  refine ⟨ι, h1, h2, hin, fun j hj hS => hj ?_⟩
  have ho := ownerOf_lt _ _ j.2
  rw [List.length_map] at ho
  have hi := innerIdx_lt _ j.2
  obtain ⟨q1, q2, -⟩ := rowPoint_offset (partOf S Xs) (d := ownerOf (Xs.map Arr2.rows) j) (i := innerIdx (Xs.map Arr2.rows) j) (by rw [partOf_length]; exact ho)
    (by rw [hrow _ ho, if_pos hS]; exact hi)
  refine ⟨⟨_, q2⟩, Fin.ext ?_⟩
  have := h2 ⟨_, q2⟩
  rw [this, q1]
  have e := (offset_owner q2).1
  rw [q1] at e
  have e2 := (offset_owner j.2).1
  have e3 := Nat.add_left_cancel e
  show offset _ _ + innerIdx _ (offset ((partOf S Xs).map Arr2.rows) (ownerOf (Xs.map Arr2.rows) j) + innerIdx (Xs.map Arr2.rows) j) = _
  rw [e3]
  exact e2

theorem cov_uncoupled {fk : FK} {S : Finset ℕ} (h : fk.Uncoupled S) {a b : ℕ} (ha : a ∈ S) (hb : b < fk.D) (hbS : b ∉ S) (x z : ℕ → ℝ) : fk.cov a b x z = 0 :=
  Finset.sum_eq_zero fun q hq => by rw [h q (Finset.mem_range.1 hq) a ha b hb hbS, zero_mul]

theorem B_uncoupled {fk : FK} (hw : fk.WF) {S : Finset ℕ} (h : fk.Uncoupled S) {a b : ℕ} (ha : a ∈ S) (hb : b < fk.D) (hbS : b ∉ S) (q : ℕ) : fk.B q a b = 0 := by
  by_cases hq : q < fk.Q
  · exact h q hq a ha b hb hbS
  · have hab : a ≠ b := fun e => hbS (e ▸ ha)
    unfold FK.B
    rw [List.getD_eq_default _ _ (by rw [hw.vecs]; exact not_lt.1 hq), if_neg hab]
    simp

theorem gridCov_uncoupled {fk : FK} (hw : fk.WF) {S : Finset ℕ} (h : fk.Uncoupled S) {a b : ℕ} (ha : a ∈ S) (hb : b < fk.D) (hbS : b ∉ S) (axes : List (List ℝ)) (idxs : List ℕ)
    (p q : ℕ) : fk.gridCov axes idxs a b p q = 0 := by
  unfold FK.gridCov
  refine List.sum_eq_zero fun y hy => ?_
  obtain ⟨k, -, rfl⟩ := List.mem_map.1 hy
  rw [B_uncoupled hw h ha hb hbS, zero_mul]

theorem skiCov_uncoupled {fk : FK} (hw : fk.WF) {S : Finset ℕ} (h : fk.Uncoupled S) {a b : ℕ} (ha : a ∈ S) (hb : b < fk.D) (hbS : b ∉ S) (axes : List ℕ → List (List ℝ))
    (extra : List ℕ × List ℕ → ℝ) (x z : ℕ → ℝ) : fk.skiCov axes extra a b x z = 0 := by
  have hab : a ≠ b := fun e => hbS (e ▸ ha)
  unfold FK.skiCov
  refine List.sum_eq_zero fun y hy => ?_
  obtain ⟨g, -, rfl⟩ := List.mem_map.1 hy
  refine Finset.sum_eq_zero fun p _ => Finset.sum_eq_zero fun q _ => ?_
  rw [gridCov_uncoupled hw h ha hb hbS, if_neg (fun e => hab e.1)]
  simp

theorem gridToData_uncoupled {fk : FK} (hw : fk.WF) {S : Finset ℕ} (h : fk.Uncoupled S) {a : ℕ} (ha : a ∈ S) (axes : List (List ℝ)) (extra : List ℕ × List ℕ → ℝ) (g : List ℕ × List ℕ)
    {Xs : List (Arr2 ℝ)} (hX : Xs.length = fk.D) (p : ℕ) {s : Fin (Xs.map Arr2.rows).sum} (hs : ownerOf (Xs.map Arr2.rows) s ∉ S) : fk.gridToData axes extra g Xs a p s = 0 := by
  have hb : ownerOf (Xs.map Arr2.rows) s < fk.D := by
    have := ownerOf_lt _ _ s.2
    rwa [List.length_map, hX] at this
  have hab : a ≠ ownerOf (Xs.map Arr2.rows) s := fun e => hs (e ▸ ha)
  unfold FK.gridToData
  refine Finset.sum_eq_zero fun q _ => ?_
  rw [gridCov_uncoupled hw h ha hb hs, if_neg (fun e => hab e.1)]
  simp

theorem row_lt {m : LLGP} {P : ℕ} (hok : m.OK P) (j : Fin (m.gp.Xs.map Arr2.rows).sum) : ownerOf (m.gp.Xs.map Arr2.rows) j < m.fk.D := by
  have := ownerOf_lt _ _ j.2
  rwa [List.length_map, hok.data.inputs.len] at this

/-- two models with the same parameters and grids, with the same observations of the outputs in `S` -/
structure AlikeOn (P : ℕ) (S : Finset ℕ) (m m' : LLGP) : Prop where
  ok : m.OK P
  ok' : m'.OK P
  fk : m'.fk = m.fk
  mode : m'.prediction = m.prediction
  axes : m'.axesOf = m.axesOf
  norm : ∀ d ∈ S, d < m.fk.D → normOf m'.gp d = normOf m.gp d
  inputs : partOf S m'.gp.Xs = partOf S m.gp.Xs
  values : ∀ d ∈ S, d < m.fk.D → m'.gp.Ys.getD d [] = m.gp.Ys.getD d []

/-- the values that go with the rows of a part -/
noncomputable def partVals (S : Finset ℕ) (Xs : List (Arr2 ℝ)) (Ys : List (List ℝ)) (r : Fin ((partOf S Xs).map Arr2.rows).sum) : ℝ :=
  (Ys.getD (ownerOf ((partOf S Xs).map Arr2.rows) r) []).getD (innerIdx ((partOf S Xs).map Arr2.rows) r) 0

section

variable {m : LLGP} {P : ℕ} (hok : m.OK P) (hso : m.fk.Sound) {S : Finset ℕ} (hu : m.fk.Uncoupled S) {d : ℕ} (hd : d ∈ S)
include hok hso hu hd

theorem covMat_zero {i j : Fin (m.gp.Xs.map Arr2.rows).sum} (hi : ownerOf (m.gp.Xs.map Arr2.rows) i ∈ S) (hj : ownerOf (m.gp.Xs.map Arr2.rows) j ∉ S) : m.fk.covMat m.gp.Xs i j = 0 := by
  show m.fk.cov _ _ (rowPoint m.gp.Xs i) (rowPoint m.gp.Xs j) + _ = 0
  rw [cov_uncoupled hu hi (row_lt hok j) hj, if_neg (fun e => hj (by rw [← e]; exact hi)), add_zero]

theorem skiMat_zero {i j : Fin (m.gp.Xs.map Arr2.rows).sum} (hi : ownerOf (m.gp.Xs.map Arr2.rows) i ∈ S) (hj : ownerOf (m.gp.Xs.map Arr2.rows) j ∉ S) :
    m.fk.skiMat m.axesOf m.fk.extraOf m.gp.Xs i j = 0 := by
  show m.fk.skiCov _ _ _ _ (rowPoint m.gp.Xs i) (rowPoint m.gp.Xs j) + _ = 0
  rw [skiCov_uncoupled hok.ready.wf hu hi (row_lt hok j) hj, if_neg (fun e => hj (by rw [← e]; exact hi)), add_zero]

theorem part_condVar (x : ℕ → ℝ) : m.fk.crossCov m.gp.Xs d x ⬝ᵥ (m.fk.covMat m.gp.Xs)⁻¹.mulVec (m.fk.crossCov m.gp.Xs d x) =
    m.fk.crossCov (partOf S m.gp.Xs) d x ⬝ᵥ (m.fk.covMat (partOf S m.gp.Xs))⁻¹.mulVec (m.fk.crossCov (partOf S m.gp.Xs) d x) := by
  obtain ⟨ι, h1, -, h3, h4⟩ := part_rows P S m.gp.Xs
  have hpd := covMat_posDef hok.ready.wf hok.data.inputs.len hso.kernels hso.kappa hso.noise
  exact quadratic_part h1.inj hpd (covMat_within hok.ready h1) (fun i j hj => covMat_zero hok hso hu hd (by rw [h1.owner]; exact (h3 i).1) (h4 j hj))
    (crossCov_within hok.ready h1 d x) (fun j hj => cov_uncoupled hu hd (row_lt hok j) (h4 j hj) _ _) (crossCov_within hok.ready h1 d x)

variable (hn : ∀ ad ∈ m.fk.activeDims.map Prod.fst, ad.Nodup)
include hn

theorem part_flyVar (x : ℕ → ℝ) : m.fk.crossCov m.gp.Xs d x ⬝ᵥ (m.fk.skiMat m.axesOf m.fk.extraOf m.gp.Xs)⁻¹.mulVec (m.fk.crossCov m.gp.Xs d x) =
    m.fk.crossCov (partOf S m.gp.Xs) d x ⬝ᵥ (m.fk.skiMat m.axesOf m.fk.extraOf (partOf S m.gp.Xs))⁻¹.mulVec (m.fk.crossCov (partOf S m.gp.Xs) d x) := by
  obtain ⟨ι, h1, -, h3, h4⟩ := part_rows P S m.gp.Xs
  exact quadratic_part h1.inj (hok.ski_posDef hso hn) (skiMat_within hok h1 _) (fun i j hj => skiMat_zero hok hso hu hd (by rw [h1.owner]; exact (h3 i).1) (h4 j hj))
    (crossCov_within hok.ready h1 d x) (fun j hj => cov_uncoupled hu hd (row_lt hok j) (h4 j hj) _ _) (crossCov_within hok.ready h1 d x)

theorem part_gridVar {g : List ℕ × List ℕ} (hg : g ∈ m.fk.activeDims) (p : ℕ) : m.fk.gridExplained m.axesOf m.fk.extraOf g m.gp.Xs d p =
    m.fk.gridExplained m.axesOf m.fk.extraOf g (partOf S m.gp.Xs) d p := by
  obtain ⟨ι, h1, -, h3, h4⟩ := part_rows P S m.gp.Xs
  exact quadratic_part h1.inj (hok.ski_posDef hso hn) (skiMat_within hok h1 _) (fun i j hj => skiMat_zero hok hso hu hd (by rw [h1.owner]; exact (h3 i).1) (h4 j hj))
    (gridToData_within hok h1 _ hg d p) (fun j hj => gridToData_uncoupled hok.ready.wf hu hd _ _ _ hok.data.inputs.len _ (h4 j hj)) (gridToData_within hok h1 _ hg d p)

theorem part_mean (x : ℕ → ℝ) : m.fk.skiMean m.axesOf m.fk.extraOf m.gp.Xs m.gp.Ys d x =
    m.fk.skiCross m.axesOf m.fk.extraOf (partOf S m.gp.Xs) d x ⬝ᵥ (m.fk.skiMat m.axesOf m.fk.extraOf (partOf S m.gp.Xs))⁻¹.mulVec (partVals S m.gp.Xs m.gp.Ys) := by
  obtain ⟨ι, h1, h2, h3, h4⟩ := part_rows P S m.gp.Xs
  refine quadratic_part h1.inj (hok.ski_posDef hso hn) (skiMat_within hok h1 _) (fun i j hj => skiMat_zero hok hso hu hd (by rw [h1.owner]; exact (h3 i).1) (h4 j hj))
    (skiCross_within hok h1 _ d x) (fun j hj => skiCov_uncoupled hok.ready.wf hu hd (row_lt hok j) (h4 j hj) _ _ _ _) fun r => ?_
  show partVals S m.gp.Xs m.gp.Ys r = m.gp.Ys.flatten.getD (ι r) 0
  have hlt : ownerOf ((partOf S m.gp.Xs).map Arr2.rows) r < m.gp.Ys.length := by
    have := ownerOf_lt _ _ r.2
    rw [List.length_map, partOf_length] at this
    have e := congrArg List.length hok.data.lens
    rw [List.length_map, List.length_map] at e
    omega
  have hin := (h3 r).2
  rw [← hok.data.lens, map_getD_lt hlt _ _ []] at hin
  rw [h2 r]
  unfold offset
  rw [← hok.data.lens, flatten_getD _ _ hlt hin]
  rfl

end

namespace AlikeOn

variable {P : ℕ} {S : Finset ℕ} {m m' : LLGP} (R : AlikeOn P S m m') (hso : m.fk.Sound) (hu : m.fk.Uncoupled S) {d : ℕ} (hd : d ∈ S)
include R hso hu hd

theorem condVar (x : ℕ → ℝ) : m'.fk.crossCov m'.gp.Xs d x ⬝ᵥ (m'.fk.covMat m'.gp.Xs)⁻¹.mulVec (m'.fk.crossCov m'.gp.Xs d x) =
    m.fk.crossCov m.gp.Xs d x ⬝ᵥ (m.fk.covMat m.gp.Xs)⁻¹.mulVec (m.fk.crossCov m.gp.Xs d x) := by
  rw [part_condVar R.ok hso hu hd, part_condVar R.ok' (by rw [R.fk]; exact hso) (by rw [R.fk]; exact hu) hd, R.inputs, R.fk]

variable (hn : ∀ ad ∈ m.fk.activeDims.map Prod.fst, ad.Nodup)
include hn

theorem flyVar (x : ℕ → ℝ) : m'.fk.crossCov m'.gp.Xs d x ⬝ᵥ (m'.fk.skiMat m'.axesOf m'.fk.extraOf m'.gp.Xs)⁻¹.mulVec (m'.fk.crossCov m'.gp.Xs d x) =
    m.fk.crossCov m.gp.Xs d x ⬝ᵥ (m.fk.skiMat m.axesOf m.fk.extraOf m.gp.Xs)⁻¹.mulVec (m.fk.crossCov m.gp.Xs d x) := by
  rw [part_flyVar R.ok hso hu hd hn, part_flyVar R.ok' (by rw [R.fk]; exact hso) (by rw [R.fk]; exact hu) hd (by rw [R.fk]; exact hn), R.inputs, R.fk, R.axes]

theorem gridVar {g : List ℕ × List ℕ} (hg : g ∈ m.fk.activeDims) (p : ℕ) :
    m'.fk.gridExplained m'.axesOf m'.fk.extraOf g m'.gp.Xs d p = m.fk.gridExplained m.axesOf m.fk.extraOf g m.gp.Xs d p := by
  rw [part_gridVar R.ok hso hu hd hn hg, part_gridVar R.ok' (by rw [R.fk]; exact hso) (by rw [R.fk]; exact hu) hd (by rw [R.fk]; exact hn) (by rw [R.fk]; exact hg), R.inputs, R.fk, R.axes]

theorem mean (x : ℕ → ℝ) : m'.fk.skiMean m'.axesOf m'.fk.extraOf m'.gp.Xs m'.gp.Ys d x = m.fk.skiMean m.axesOf m.fk.extraOf m.gp.Xs m.gp.Ys d x := by
  rw [part_mean R.ok hso hu hd hn, part_mean R.ok' (by rw [R.fk]; exact hso) (by rw [R.fk]; exact hu) hd (by rw [R.fk]; exact hn)]
  have e : partVals S m'.gp.Xs m'.gp.Ys = partVals S m'.gp.Xs m.gp.Ys := by
    funext r
    unfold partVals
    obtain ⟨-, -, -, h3, -⟩ := part_rows P S m'.gp.Xs
    have := ownerOf_lt _ _ r.2
    rw [List.length_map, partOf_length, R.ok'.data.inputs.len, R.fk] at this
    rw [R.values _ (h3 r).1 this]
  rw [e, R.fk, R.axes]
  unfold partVals
  rw [R.inputs]

end AlikeOn

/-- what the observations explain: the same exception, or the same numbers at the points of the outputs in `S` -/
theorem explained_uncoupled {sv : Solvers} (hs : sv.Fit) (hx : sv.Exact) {m m' : LLGP} {P : ℕ} {S : Finset ℕ} (R : AlikeOn P S m m') {k k' : LLKernel} (hc : m.Current sv k)
    (hc' : m'.Current sv k') (hso : m.fk.Sound) (hu : m.fk.Uncoupled S) (hn : ∀ ad ∈ m.fk.activeDims.map Prod.fst, ad.Nodup) {e e' : Env} (he : e.Works) (he' : e'.Works)
    {Xs : List (Arr2 ℝ)} (hX : InputsOK m.fk.D P Xs) :
    (∃ x, m.explained sv e Xs (m.queryWs Xs) = .error x ∧ m'.explained sv e' Xs (m'.queryWs Xs) = .error x) ∨
    ∃ f f', m.explained sv e Xs (m.queryWs Xs) = .ok (vmk (Xs.map Arr2.rows).sum f) ∧ m'.explained sv e' Xs (m'.queryWs Xs) = .ok (vmk (Xs.map Arr2.rows).sum f') ∧
      ∀ r, ownerOf (Xs.map Arr2.rows) r ∈ S → f' r = f r := by
  have hso' : m'.fk.Sound := by rw [R.fk]; exact hso
  have hn' : ∀ ad ∈ m'.fk.activeDims.map Prod.fst, ad.Nodup := by rw [R.fk]; exact hn
  have hX' : InputsOK m'.fk.D P Xs := by rw [R.fk]; exact hX
  have hxs := exact_of_current hs hx R.ok hc hso hn
  have hxs' := exact_of_current hs hx R.ok' hc' hso' hn'
  have hpd := covMat_posDef R.ok.ready.wf R.ok.data.inputs.len hso.kernels hso.kappa hso.noise
  have hpd' := covMat_posDef R.ok'.ready.wf R.ok'.data.inputs.len hso'.kernels hso'.kappa hso'.noise
  cases hm : m.prediction with
  | exact => exact .inr ⟨_, _, (explained_exact R.ok hm hX sv e _).1 hpd, (explained_exact R.ok' (R.mode.trans hm) hX' sv e' _).1 hpd', fun r hr => R.condVar hso hu hr _⟩
  | onTheFly =>
    by_cases h0 : 0 < (Xs.map Arr2.rows).sum
    · exact .inr ⟨_, _, explained_fly_exact hs R.ok hm hc (hxs _) he hX h0 _, explained_fly_exact hs R.ok' (R.mode.trans hm) hc' (hxs' _) he' hX' h0 _,
        fun r hr => R.flyVar hso hu hr hn _⟩
    · have h0 : (Xs.map Arr2.rows).sum = 0 := by omega
      exact .inl ⟨_, explained_fly_none R.ok hm hc hX (he 0) h0 _, explained_fly_none R.ok' (R.mode.trans hm) hc' hX' (he' 0) h0 _⟩
  | precompute =>
    have hm' := R.mode.trans hm
    obtain ⟨f1, f2⟩ := explained_pre_fails (sv := sv) R.ok hm e Xs (m.queryWs Xs)
    obtain ⟨f1', f2'⟩ := explained_pre_fails (sv := sv) R.ok' hm' e' Xs (m'.queryWs Xs)
    by_cases hl : m.fk.activeDims.length = 1
    · obtain ⟨g, hg⟩ := List.length_eq_one_iff.1 hl
      by_cases hg1 : g.1 = List.range P
      · refine .inr ⟨_, _, explained_pre_exact hs R.ok hm hc (hxs _) he hX hg hg1, explained_pre_exact hs R.ok' hm' hc' (hxs' _) he' hX' (by rw [R.fk]; exact hg) hg1, fun r hr => ?_⟩
        refine Finset.sum_congr (by rw [R.axes]) fun p _ => ?_
        rw [R.gridVar hso hu hr hn (by rw [hg]; simp), R.axes]
      · exact .inl ⟨_, f2 g hg hg1, f2' g (by rw [R.fk]; exact hg) hg1⟩
    · exact .inl ⟨_, f1 hl, f1' (by rw [R.fk]; exact hl)⟩

theorem predict_uncoupled {sv : Solvers} (hx : sv.Exact) {m m' : LLGP} {P : ℕ} {S : Finset ℕ} (R : AlikeOn P S m m') {k k' : LLKernel} {Qs : List (NDArr ℝ)}
    (h : Asked sv m P k Qs) (h' : Asked sv m' P k' Qs) (hso : m.fk.Sound) (hu : m.fk.Uncoupled S) (hn : ∀ ad ∈ m.fk.activeDims.map Prod.fst, ad.Nodup) {e e' : Env}
    (he : e.Works) (he' : e'.Works) :
    (∃ x, m.gp.predict (m.rawPredict sv e) Qs = .error x ∧ m'.gp.predict (m'.rawPredict sv e') Qs = .error x) ∨
    ∃ r r', m.gp.predict (m.rawPredict sv e) Qs = .ok r ∧ m'.gp.predict (m'.rawPredict sv e') Qs = .ok r' ∧
      ∀ d ∈ S, d < m.fk.D → r'.1.getD d [] = r.1.getD d [] ∧ r'.2.getD d [] = r.2.getD d [] := by
  have hso' : m'.fk.Sound := by rw [R.fk]; exact hso
  have hn' : ∀ ad ∈ m'.fk.activeDims.map Prod.fst, ad.Nodup := by rw [R.fk]; exact hn
  rcases explained_uncoupled h.fit hx R h.current h'.current hso hu hn he he' h.inputs with ⟨x, h1, h2⟩ | ⟨f, f', h1, h2, h3⟩
  · exact .inl ⟨x, predict_error h (raw_explained_error h.fit h.ok h.current h.inputs e hso.plain h1),
      predict_error h' (raw_explained_error h'.fit h'.ok h'.current h'.inputs e' hso'.plain h2)⟩
  · rw [padded_lens] at h1 h2
    obtain ⟨r, r1, -, r3⟩ := predict_from h hso.plain e h1
    obtain ⟨r', s1, -, s3⟩ := predict_from h' hso'.plain e' h2
    refine .inr ⟨r, r', r1, s1, fun d hd hD => ?_⟩
    have hD' : d < m'.fk.D := by rw [R.fk]; exact hD
    have hmean : ∀ x, m'.meanWith k'.approx.alpha d x = m.meanWith k.approx.alpha d x := fun x => by
      rw [meanWith_exact h.ok h.current (exact_of_current h.fit hx h.ok h.current hso hn _), meanWith_exact h'.ok h'.current (exact_of_current h'.fit hx h'.ok h'.current hso' hn' _)]
      exact R.mean hso hu hd hn x
    constructor
    · refine list_ext_getD (d := 0) (by rw [(r3.mlen d hD).1, (s3.mlen d hD').1]) fun i hi => ?_
      rw [(s3.mlen d hD').1] at hi
      rw [(r3.entry d hD i hi).1, (s3.entry d hD' i hi).1, hmean, R.norm d hd hD]
    · refine list_ext_getD (d := 0) (by rw [(r3.mlen d hD).2, (s3.mlen d hD').2]) fun i hi => ?_
      rw [(s3.mlen d hD').2] at hi
      obtain ⟨q1, -, -⟩ := query_row h.queries hD hi
      rw [(r3.entry d hD i hi).2, (s3.entry d hD' i hi).2, R.norm d hd hD, R.fk, h3 _ (by rw [q1]; exact hd)]

/-! ### models made from arguments -/

theorem ys_getD {a : LLGPArgs} {m : LLGP} {P : ℕ} (h : m.MadeFrom P a) {d : ℕ} (hd : d < a.Ys.length) :
    m.gp.Ys.getD d [] = (a.Ys.getD d ⟨[], []⟩).data.map fun y => (y - a.centreOf d) / a.scaleOf d := by
  rw [(MadeFrom.scale h).2.2, List.getD_eq_getElem _ _ (by rw [List.length_mapIdx]; exact hd), List.getElem_mapIdx, List.getD_eq_getElem _ _ hd]

theorem LLGPArgs.SameOn.alike {a a' : LLGPArgs} {P : ℕ} {S : Finset ℕ} (hw : a.SameOn S a') {m m' : LLGP} (hok : m.OK P) (hok' : m'.OK P) (ha : m.MadeFrom P a) (ha' : m'.MadeFrom P a')
    (hfk : m'.fk = m.fk) (hm : m'.prediction = m.prediction) (hax : m'.axesOf = m.axesOf) : AlikeOn P S m m' := by
  obtain ⟨x1, n1, -⟩ := MadeFrom.scale ha
  obtain ⟨x2, n2, -⟩ := MadeFrom.scale ha'
  have hL : ∀ Q : List (NDArr ℝ), (padded P Q).length = Q.length := fun Q => by unfold padded; rw [List.length_map]
  have hD : m.fk.D = a.Xs.length := by rw [← hok.data.inputs.len, x1, hL]
  have hY : a.Ys.length = a.Xs.length := by obtain ⟨_, _, h, -⟩ := ha; exact h.data.len.symm
  have hY' : a'.Ys.length = a.Xs.length := by obtain ⟨_, _, h, -⟩ := ha'; rw [← hw.outputs]; exact h.data.len.symm
  have hsc : ∀ d ∈ S, a'.scaleOf d = a.scaleOf d ∧ a'.centreOf d = a.centreOf d := fun d hd => by
    unfold LLGPArgs.scaleOf LLGPArgs.centreOf
    rw [hw.normalize, hw.values d hd]
    exact ⟨rfl, rfl⟩
  refine ⟨hok, hok', hfk, hm, hax, fun d hd hlt => ?_, ?_, fun d hd hlt => ?_⟩
  · rw [hD] at hlt
    rw [(n1 d hlt).1, (n2 d (by rw [hw.outputs]; exact hlt)).1, (hsc d hd).1, (hsc d hd).2]
  · rw [x1, x2]
    refine list_ext_getD (d := ⟨0, 0, []⟩) (by rw [partOf_length, partOf_length, hL, hL, hw.outputs]) fun d hd => ?_
    rw [partOf_length, hL] at hd
    have hd1 : d < a.Xs.length := by rw [← hw.outputs]; exact hd
    rw [partOf_getD S (by rw [hL]; exact hd), partOf_getD S (by rw [hL]; exact hd1)]
    unfold padded
    rw [map_getD_lt hd _ _ ⟨[], []⟩, map_getD_lt hd1 _ _ ⟨[], []⟩]
    split_ifs with h
    · rw [hw.inputs d h]
    · rfl
  · rw [hD] at hlt
    rw [ys_getD ha (by rw [hY]; exact hlt), ys_getD ha' (by rw [hY']; exact hlt), hw.values d hd, (hsc d hd).1, (hsc d hd).2]

end Verif
