import Verif.Proofs.Repeated
import Verif.Props.Observations
import Verif.Props.Uncoupled
import Verif.Props.Reordered

/-! C109: measurements that were repeated at the same points. -/

namespace Verif

/-- rows of all observations, in order of outputs, when the observations of each output are mapped -/
theorem rows_map (lens lens' : List ℕ) (hl : lens'.length = lens.length) (f : ℕ → ℕ → ℕ) (hf : ∀ d < lens.length, ∀ j < lens'.getD d 0, f d j < lens.getD d 0) :
    ∃ F : Fin lens'.sum → Fin lens.sum, (∀ j : Fin lens'.sum, ownerOf lens (F j) = ownerOf lens' j ∧ innerIdx lens (F j) = f (ownerOf lens' j) (innerIdx lens' j)) ∧
      ∀ (i : Fin lens.sum) (g : ℕ → ℕ → ℝ), ∑ j ∈ Finset.univ.filter (fun j => F j = i), g (ownerOf lens' j) (innerIdx lens' j) =
        ∑ j ∈ (Finset.range (lens'.getD (ownerOf lens i) 0)).filter (fun j => f (ownerOf lens i) j = innerIdx lens i), g (ownerOf lens i) j := by
  have ho : ∀ j : Fin lens'.sum, ownerOf lens' j < lens.length := fun j => by rw [← hl]; exact ownerOf_lt _ _ j.2
  have key : ∀ j : Fin lens'.sum, f (ownerOf lens' j) (innerIdx lens' j) < lens.getD (ownerOf lens' j) 0 := fun j => hf _ (ho j) _ (innerIdx_lt _ j.2)
  have hF : ∀ j : Fin lens'.sum, _ := fun j => ownerOf_offset (ho j) (key j)
  refine ⟨fun j => ⟨offset lens (ownerOf lens' j) + f (ownerOf lens' j) (innerIdx lens' j), (hF j).2.1⟩, fun j => ⟨(hF j).1, (hF j).2.2⟩, fun i g => ?_⟩
  have hi := offset_owner i.2
  have hoi := ownerOf_lt _ _ i.2
  refine Finset.sum_bij (fun j _ => innerIdx lens' j) (fun j hj => ?_) (fun j hj j' hj' e => ?_) (fun j hj => ?_) (fun j hj => ?_)
  · have e := congrArg Fin.val (Finset.mem_filter.1 hj).2
    have h1 := (hF j).1
    have h2 := (hF j).2.2
    simp only at e
    rw [e] at h1 h2
    rw [Finset.mem_filter, Finset.mem_range, h1]
    exact ⟨innerIdx_lt _ j.2, h2.symm⟩
  · have e1 := congrArg Fin.val (Finset.mem_filter.1 hj).2
    have e2 := congrArg Fin.val (Finset.mem_filter.1 hj').2
    simp only at e1 e2
    have h1 := (hF j).1
    have h2 := (hF j').1
    rw [e1] at h1
    rw [e2] at h2
    refine Fin.ext ?_
    rw [← (offset_owner j.2).1, ← (offset_owner j'.2).1, e, ← h1, ← h2]
  · obtain ⟨j1, j2⟩ := Finset.mem_filter.1 hj
    obtain ⟨b1, b2, b3⟩ := ownerOf_offset (lens := lens') (a := ownerOf lens i) (i := j) (by rw [hl]; exact hoi) (Finset.mem_range.1 j1)
    refine ⟨⟨_, b2⟩, Finset.mem_filter.2 ⟨Finset.mem_univ _, Fin.ext ?_⟩, b3⟩
    simp only
    rw [b1, b3, j2]
    exact hi.1
  · have e := congrArg Fin.val (Finset.mem_filter.1 hj).2
    have h1 := (hF j).1
    simp only at e
    rw [e] at h1
    rw [h1]

/-- an observation as the model stores it -/
theorem stored_value {m : LLGP} {P : ℕ} {a : LLGPArgs} (ha : m.MadeFrom P a) (hok : m.OK P) {r : ℕ} (hr : r < (m.gp.Xs.map Arr2.rows).sum) :
    m.gp.Ys.flatten.getD r 0 = (a.value (ownerOf (m.gp.Xs.map Arr2.rows) r) (innerIdx (m.gp.Xs.map Arr2.rows) r) - a.centreOf (ownerOf (m.gp.Xs.map Arr2.rows) r)) /
      a.scaleOf (ownerOf (m.gp.Xs.map Arr2.rows) r) := by
  obtain ⟨h1, h2⟩ := offset_owner hr
  have h3 := ownerOf_lt _ _ hr
  have hl := hok.data.lens
  rw [← hl] at hr h1 h2 h3 ⊢
  set d := ownerOf (m.gp.Ys.map List.length) r
  rw [List.length_map] at h3
  rw [map_getD_lt h3 _ _ []] at h2
  have hY : m.gp.Ys.length = a.Ys.length := by rw [(MadeFrom.scale ha).2.2, List.length_mapIdx]
  have y := ys_getD ha (d := d) (by rw [← hY]; exact h3)
  conv_lhs => rw [← h1]
  unfold offset
  rw [flatten_getD _ _ h3 h2, y]
  rw [y, List.length_map] at h2
  rw [map_getD_lt h2 _ _ 0]
  rfl

theorem fibre_sum {n n' k : ℕ} {f : ℕ → ℕ} (hf : ∀ j < n', f j < n) (hk : ∀ i < n, ((Finset.range n').filter fun j => f j = i).card = k) (g : ℕ → ℝ) :
    ∑ j ∈ Finset.range n', g (f j) = k * ∑ i ∈ Finset.range n, g i := by
  rw [← Finset.sum_fiberwise_of_maps_to (s := Finset.range n') (t := Finset.range n) (g := f) (fun j hj => Finset.mem_range.2 (hf j (Finset.mem_range.1 hj))), Finset.mul_sum]
  refine Finset.sum_congr rfl fun i hi => ?_
  rw [Finset.sum_congr rfl fun j hj => by rw [(Finset.mem_filter.1 hj).2], Finset.sum_const, hk i (Finset.mem_range.1 hi), nsmul_eq_mul]

/-- repeated values have the same mean and standard deviation -/
theorem repeated_moments {l l' : List ℝ} {k : ℕ} (hk0 : 0 < k) {f : ℕ → ℕ} (hf : ∀ j < l'.length, f j < l.length)
    (hk : ∀ i < l.length, ((Finset.range l'.length).filter fun j => f j = i).card = k) (hv : ∀ j < l'.length, l'.getD j 0 = l.getD (f j) 0) :
    meanOf l' = meanOf l ∧ sdOf l' = sdOf l := by
  have hn : (l'.length : ℝ) = k * l.length := by
    have := fibre_sum hf hk fun _ => 1
    simpa using this
  have hk1 : (k : ℝ) ≠ 0 := by exact_mod_cast hk0.ne'
  have avg : ∀ g : ℝ → ℝ, (∑ j ∈ Finset.range l'.length, g (l'.getD j 0)) / l'.length = (∑ i ∈ Finset.range l.length, g (l.getD i 0)) / l.length := fun g => by
    rw [Finset.sum_congr rfl fun j hj => by rw [hv j (Finset.mem_range.1 hj)], fibre_sum hf hk fun i => g (l.getD i 0), hn, mul_div_mul_left _ _ hk1]
  have hm : meanOf l' = meanOf l := avg id
  refine ⟨hm, ?_⟩
  unfold sdOf varOf
  rw [hm, avg fun y => (y - meanOf l) ^ 2]

section
variable {P : ℕ} {k : ℕ → ℕ} {f : ℕ → ℕ → ℕ} {a a' : LLGPArgs} {m m' : LLGP}

theorem made_lens (ha : m.MadeFrom P a) {d : ℕ} (hd : d < a.Xs.length) : (a.Ys.getD d ⟨[], []⟩).data.length = (queryLens a.Xs).getD d 0 ∧ 0 < (queryLens a.Xs).getD d 0 := by
  obtain ⟨fk, m0, h, -⟩ := ha
  have e := documented_lens h hd
  refine ⟨e, ?_⟩
  rw [← e]
  exact List.length_pos_iff.2 (h.filled _ (getD_mem_of_lt (by rw [← h.data.len]; exact hd) _))

theorem made_D (ha : m.MadeFrom P a) (hok : m.OK P) : m.fk.D = a.Xs.length := by
  rw [← hok.data.inputs.len, (MadeFrom.scale ha).1]
  unfold padded
  rw [List.length_map]

theorem repeats_pos (h : a.Repeats P k f a') (ha' : m'.MadeFrom P a') {d : ℕ} (hd : d < a.Xs.length) : 0 < k d := by
  have h0 := (made_lens ha' (by rw [h.outputs]; exact hd)).2
  rw [← h.times d hd (f d 0) (h.measured d hd 0 h0).1]
  exact Finset.card_pos.2 ⟨0, Finset.mem_filter.2 ⟨Finset.mem_range.2 h0, rfl⟩⟩

theorem repeats_coords (h : a.Repeats P k f a') (ha' : m'.MadeFrom P a') {c : ℕ} (hc : c < P) : a'.coords P c = a.coords P c := by
  ext x
  constructor
  · rintro ⟨d, hd, j, hj, rfl⟩
    rw [h.outputs] at hd
    obtain ⟨h1, h2⟩ := h.measured d hd j hj
    exact ⟨d, hd, f d j, h1, (h2 c hc).symm⟩
  · rintro ⟨d, hd, i, hi, rfl⟩
    have hp := repeats_pos h ha' hd
    rw [← h.times d hd i hi] at hp
    obtain ⟨j, hj⟩ := Finset.card_pos.1 hp
    obtain ⟨j1, rfl⟩ := Finset.mem_filter.1 hj
    exact ⟨d, by rw [h.outputs]; exact hd, j, Finset.mem_range.1 j1, (h.measured d hd j (Finset.mem_range.1 j1)).2 c hc⟩

theorem repeats_replicated (h : a.Repeats P k f a') (ha : m.MadeFrom P a) (ha' : m'.MadeFrom P a') (hok : m.OK P) (hok' : m'.OK P) (hfk : m.fk.NoiseTimes k m'.fk)
    (hm : m'.prediction = m.prediction) (hs : ∀ d < a.Xs.length, a'.scaleOf d = a.scaleOf d ∧ a'.centreOf d = a.centreOf d)
    (hv : ∀ d < a.Xs.length, ∀ i < (queryLens a.Xs).getD d 0,
      ∑ j ∈ (Finset.range ((queryLens a'.Xs).getD d 0)).filter (fun j => f d j = i), a'.value d j = k d * a.value d i) : Replicated P k m m' := by
  have hdims : m'.fk.activeDims = m.fk.activeDims := by rw [hfk.same]
  have hD := made_D ha hok
  have hax : m'.axesOf = m.axesOf := by
    refine made_same_axes ha ha' hok hok' hdims fun c hc L H n r => ?_
    obtain ⟨-, o2, o3, o4, -⟩ := h.options
    obtain ⟨r1, r2, r3, -⟩ := r
    exact ⟨by rw [repeats_coords h ha' hc, o2]; exact r1, by rw [repeats_coords h ha' hc, o3]; exact r2, by rw [o4]; exact r3, fun e => absurd (by rw [← o4]; exact e) (h.size c hc)⟩
  refine ⟨hok, hok', hfk, hm, hax, fun d hd => repeats_pos h ha' (by rw [← hD]; exact hd), ?_⟩
  have x1 := (MadeFrom.scale ha).1
  have x2 := (MadeFrom.scale ha').1
  have l1 : m.gp.Xs.map Arr2.rows = queryLens a.Xs := by rw [x1, padded_lens]
  have l2 : m'.gp.Xs.map Arr2.rows = queryLens a'.Xs := by rw [x2, padded_lens]
  have q1 : (queryLens a.Xs).length = a.Xs.length := by unfold queryLens; rw [List.length_map]
  have q2 : (queryLens a'.Xs).length = a'.Xs.length := by unfold queryLens; rw [List.length_map]
  obtain ⟨F, F1, F2⟩ := rows_map (m.gp.Xs.map Arr2.rows) (m'.gp.Xs.map Arr2.rows) (by rw [l1, l2, q1, q2, h.outputs]) f (by
    rw [l1, l2, q1]
    exact fun d hd j hj => (h.measured d hd j hj).1)
  have own : ∀ i : Fin (m.gp.Xs.map Arr2.rows).sum, ownerOf (m.gp.Xs.map Arr2.rows) i < a.Xs.length := fun i => by
    have := ownerOf_lt _ _ i.2
    rwa [List.length_map, hok.data.inputs.len, hD] at this
  refine ⟨F, fun j => (F1 j).1.symm, fun j c hc => ?_, fun i => ?_⟩
  · have hd := own (F j)
    have hin := innerIdx_lt _ j.2
    unfold rowPoint
    rw [(F1 j).1, (F1 j).2]
    rw [(F1 j).1] at hd
    simp only [l2] at hd hin ⊢
    generalize (j : ℕ) = s at hd hin ⊢
    rw [x1, x2, pointOf_padded (by rw [h.outputs]; exact hd), pointOf_padded hd]
    exact (h.measured _ hd _ hin).2 c hc
  · have hd := own i
    have hin := innerIdx_lt _ i.2
    have sum := F2 i
    constructor
    · have := sum fun _ _ => 1
      rw [Finset.sum_const, Finset.sum_const, nsmul_eq_mul, nsmul_eq_mul, mul_one, mul_one] at this
      rw [Nat.cast_injective (R := ℝ) this]
      simp only [l1] at hd hin ⊢
      rw [l2]
      exact h.times _ hd _ hin
    · have e : ∀ j : Fin (m'.gp.Xs.map Arr2.rows).sum, m'.gp.Ys.flatten.getD j 0 =
          (fun d i => (a'.value d i - a'.centreOf d) / a'.scaleOf d) (ownerOf (m'.gp.Xs.map Arr2.rows) j) (innerIdx (m'.gp.Xs.map Arr2.rows) j) := fun j => stored_value ha' hok' j.2
      rw [Finset.sum_congr rfl fun j _ => e j, sum (fun d i => (a'.value d i - a'.centreOf d) / a'.scaleOf d), stored_value ha hok i.2]
      simp only [l1] at hd hin ⊢
      rw [l2]
      generalize ownerOf (queryLens a.Xs) i = d at hd hin ⊢
      generalize innerIdx (queryLens a.Xs) i = r at hin ⊢
      obtain ⟨s1, s2⟩ := hs d hd
      rw [← Finset.sum_div, Finset.sum_sub_distrib, hv d hd r hin, Finset.sum_const, h.times d hd r hin, nsmul_eq_mul, s1, s2]
      ring

theorem repeats_predict {sv : Solvers} (hs : sv.Fit) (hx : sv.Exact) {κ κ' : LLKernel} {Qs : List (NDArr ℝ)} (R : Replicated P k m m') (h : Asked sv m P κ Qs) (h' : Asked sv m' P κ' Qs)
    (hso : m.fk.Sound) (hn : ∀ ad ∈ m.fk.activeDims.map Prod.fst, ad.Nodup) (ha : m.MadeFrom P a) (ha' : m'.MadeFrom P a') (hX : a'.Xs.length = a.Xs.length)
    (hsc : ∀ d < a.Xs.length, a'.scaleOf d = a.scaleOf d ∧ a'.centreOf d = a.centreOf d) {e e' : Env} (he : e.Works) (he' : e'.Works) :
    (∃ x, m.gp.predict (m.rawPredict sv e) Qs = .error x ∧ m'.gp.predict (m'.rawPredict sv e') Qs = .error x) ∨
    ∃ r r', m.gp.predict (m.rawPredict sv e) Qs = .ok r ∧ m'.gp.predict (m'.rawPredict sv e') Qs = .ok r' ∧
      r.UpToNoise m.fk.D (queryLens Qs) (fun d => (k d - 1) * m.fk.noise.getD d 0 * a.scaleOf d ^ 2) r' := by
  have hD := made_D ha R.ok
  rcases R.raw hs hx h.current h'.current hso hn he he' h.inputs with ⟨x, x1, x2⟩ | ⟨p, p', p1, p2, p3, p4, p5⟩
  · exact .inl ⟨x, predict_error h x1, predict_error h' x2⟩
  · rw [padded_lens] at p3 p4 p5
    obtain ⟨r, r1, r2⟩ := (predict_values m.gp R.ok.gp _ Qs (by rw [R.ok.outputDim, R.ok.inputDim]; exact h.queries) p (by rw [R.ok.inputDim]; exact p1) p3 []).1
    obtain ⟨r', r1', r2'⟩ := (predict_values m'.gp R.ok'.gp _ Qs (by rw [R.ok'.outputDim, R.ok'.inputDim]; exact h'.queries) p' (by rw [R.ok'.inputDim]; exact p2) p4 []).1
    refine .inr ⟨r, r', r1, r1', fun d hd i hi => ?_⟩
    obtain ⟨n1, n2⟩ := (MadeFrom.scale ha).2.1 d (by rw [← hD]; exact hd)
    obtain ⟨n1', n2'⟩ := (MadeFrom.scale ha').2.1 d (by rw [hX, ← hD]; exact hd)
    obtain ⟨s1, s2⟩ := hsc d (by rw [← hD]; exact hd)
    obtain ⟨q1, q2⟩ := r2.entry d (by rw [R.ok.outputDim]; exact hd) i hi
    obtain ⟨q1', q2'⟩ := r2'.entry d (by rw [R.ok'.outputDim, R.D]; exact hd) i hi
    obtain ⟨t1, t2, t3, t4⟩ := p5 d hd i hi
    have sp := pow_pos n2 2
    rw [q1, q2, q1', q2', n1, n1', s1, s2]
    simp only at t3 t4 ⊢
    refine ⟨by rw [t1], mul_le_mul_of_nonneg_right t2 sp.le, ?_, fun h0 => ?_⟩
    · rw [← add_mul]
      exact mul_le_mul_of_nonneg_right t3 sp.le
    · rw [t4 (pos_of_mul_pos_left h0 sp.le), add_mul]

end

/-- the numbers of input dimensions agree -/
theorem noiseTimes_inputDim {P P' : ℕ} {k : ℕ → ℕ} {m m' : LLGP} (h : m.OK P) (h' : m'.OK P') (hfk : m.fk.NoiseTimes k m'.fk) : P' = P := by
  have := h'.ready.input
  rw [hfk.same] at this
  exact Option.some.inj (this.symm.trans h.ready.input)

theorem repeated_program {sv : Solvers} (hs : sv.Fit) (hx : sv.Exact) {ops ops' : List Op} {i i' : ℕ} {a a' : LLGPArgs} {m m' : LLGP} (h : Held sv ops i a m)
    (h' : Held sv ops' i' a' m') (hn : ∀ ad ∈ m.fk.activeDims.map Prod.fst, ad.Nodup) {k : ℕ → ℕ} {f : ℕ → ℕ → ℕ} (hr : a.Repeats m.gp.inputDim k f a')
    (hfk : m.fk.NoiseTimes k m'.fk) {Qs : List (NDArr ℝ)} (hQ : m.Accepts Qs) {e e' : Env} (he : e.Works) (he' : e'.Works)
    (hsc : ∀ d < a.Xs.length, a'.scaleOf d = a.scaleOf d ∧ a'.centreOf d = a.centreOf d)
    (hv : ∀ d < a.Xs.length, ∀ i < (queryLens a.Xs).getD d 0,
      ∑ j ∈ (Finset.range ((queryLens a'.Xs).getD d 0)).filter (fun j => f d j = i), a'.value d j = k d * a.value d i) :
    (∃ x, Predicts sv ops i Qs e (.error x) ∧ Predicts sv ops' i' Qs e' (.error x)) ∨
    ∃ r r', Predicts sv ops i Qs e (.ok r) ∧ Predicts sv ops' i' Qs e' (.ok r') ∧
      r.UpToNoise m.gp.outputDim (queryLens Qs) (fun d => (k d - 1) * m.fk.noise.getD d 0 * a.scaleOf d ^ 2) r' := by
  obtain ⟨κ, f1, f2, f3, f4, f5, -, f7⟩ := h.facts hs
  obtain ⟨κ', g1, -, g3, g4, g5, -, g7⟩ := h'.facts hs
  have hP := noiseTimes_inputDim f5 g5 hfk
  have hQ' : m'.Accepts Qs := by
    unfold LLGP.Accepts
    rw [hP, g3, hfk.same]
    show QueriesOK m.fk.D _ _ ∧ _
    rw [← f3]
    exact hQ
  have ask' := g4 Qs hQ'
  rw [hP] at g1 g5 ask'
  have F := f7 Qs e he
  have G := g7 Qs e' he'
  have R := repeats_replicated hr f1 g1 f5 g5 hfk (held_prediction hs h h' hr.options.2.2.2.2) hsc hv
  rcases repeats_predict hs hx R (f4 Qs hQ) ask' f2 hn f1 g1 hr.outputs hsc he he' with ⟨x, x1, x2⟩ | ⟨r, r', r1, r2, r3⟩
  · exact .inl ⟨x, x1 ▸ F, x2 ▸ G⟩
  · refine .inr ⟨r, r', r1 ▸ F, r2 ▸ G, ?_⟩
    rw [f3]
    exact r3

/-- C109: repeated measurements may be averaged. When the values of a model without normalisation are the averages of `k d` measurements at each point of output `d`, and the
model that was given all measurements has `k d` times its noise, both predict the same means, and the same variances but for the difference of the noise, whatever the
programs that made them did before and in every prediction mode (or both raise the same exception). -/
theorem C109_averages (sv : Solvers) (hs : sv.Fit) (hx : sv.Exact) (ops ops' : List Op) (i i' : ℕ) (a a' : LLGPArgs) (m m' : LLGP) (h : Held sv ops i a m)
    (h' : Held sv ops' i' a' m') (hn : ∀ ad ∈ m.fk.activeDims.map Prod.fst, ad.Nodup) (k : ℕ → ℕ) (f : ℕ → ℕ → ℕ) (hr : a.Repeats m.gp.inputDim k f a')
    (hno : a.normalize = false) (hv : a.AveragesValues k f a') (hfk : m.fk.NoiseTimes k m'.fk) (Qs : List (NDArr ℝ)) (hQ : m.Accepts Qs) (e e' : Env) (he : e.Works) (he' : e'.Works) :
    (∃ x, Predicts sv ops i Qs e (.error x) ∧ Predicts sv ops' i' Qs e' (.error x)) ∨
    ∃ r r', Predicts sv ops i Qs e (.ok r) ∧ Predicts sv ops' i' Qs e' (.ok r') ∧
      r.UpToNoise m.gp.outputDim (queryLens Qs) (fun d => (k d - 1) * m.fk.noise.getD d 0) r' := by
  obtain ⟨κ', g1, -, g3, g4, g5, -, g7⟩ := h'.facts hs
  have sc : ∀ d, a.scaleOf d = 1 ∧ a.centreOf d = 0 ∧ a'.scaleOf d = 1 ∧ a'.centreOf d = 0 := fun d => by
    unfold LLGPArgs.scaleOf LLGPArgs.centreOf
    rw [hr.options.1, hno]
    exact ⟨rfl, rfl, rfl, rfl⟩
  have hP : m'.gp.inputDim = m.gp.inputDim := by
    obtain ⟨-, -, -, -, -, f5, -⟩ := h.facts hs
    exact noiseTimes_inputDim f5 g5 hfk
  have := repeated_program hs hx h h' hn hr hfk hQ he he' (fun d _ => by rw [(sc d).1, (sc d).2.1, (sc d).2.2.1, (sc d).2.2.2]; exact ⟨rfl, rfl⟩) fun d hd j hj => by
    have hp : (k d : ℝ) ≠ 0 := by exact_mod_cast (repeats_pos hr (hP ▸ g1) hd).ne'
    rw [hv d hd j hj]
    field_simp
  simp only [(sc _).1, one_pow, mul_one] at this
  exact this

/-- C109: and with normalisation or without, measurements that all gave the value of the first model may be left out. -/
theorem C109_repeats (sv : Solvers) (hs : sv.Fit) (hx : sv.Exact) (ops ops' : List Op) (i i' : ℕ) (a a' : LLGPArgs) (m m' : LLGP) (h : Held sv ops i a m)
    (h' : Held sv ops' i' a' m') (hn : ∀ ad ∈ m.fk.activeDims.map Prod.fst, ad.Nodup) (k : ℕ → ℕ) (f : ℕ → ℕ → ℕ) (hr : a.Repeats m.gp.inputDim k f a')
    (hv : a.RepeatsValues f a') (hfk : m.fk.NoiseTimes k m'.fk) (Qs : List (NDArr ℝ)) (hQ : m.Accepts Qs) (e e' : Env) (he : e.Works) (he' : e'.Works) :
    (∃ x, Predicts sv ops i Qs e (.error x) ∧ Predicts sv ops' i' Qs e' (.error x)) ∨
    ∃ r r', Predicts sv ops i Qs e (.ok r) ∧ Predicts sv ops' i' Qs e' (.ok r') ∧
      r.UpToNoise m.gp.outputDim (queryLens Qs) (fun d => (k d - 1) * m.fk.noise.getD d 0 * a.scaleOf d ^ 2) r' := by
  obtain ⟨κ', g1, -, g3, g4, g5, -, g7⟩ := h'.facts hs
  obtain ⟨κ, f1, -, -, -, f5, -⟩ := h.facts hs
  have hP : m'.gp.inputDim = m.gp.inputDim := noiseTimes_inputDim f5 g5 hfk
  refine repeated_program hs hx h h' hn hr hfk hQ he he' (fun d hd => ?_) fun d hd j hj => ?_
  · have l1 := (made_lens f1 hd).1
    have l2 := (made_lens g1 (d := d) (by rw [hr.outputs]; exact hd)).1
    obtain ⟨m1, m2⟩ := repeated_moments (l := (a.Ys.getD d ⟨[], []⟩).data) (l' := (a'.Ys.getD d ⟨[], []⟩).data) (repeats_pos hr (hP ▸ g1) hd) (f := f d)
      (by rw [l1, l2]; exact fun j hj => (hr.measured d hd j hj).1) (by rw [l1, l2]; exact hr.times d hd) (by rw [l2]; exact hv d hd)
    unfold LLGPArgs.scaleOf LLGPArgs.centreOf
    rw [hr.options.1, m1, m2]
    exact ⟨rfl, rfl⟩
  · rw [← hr.times d hd j hj, ← nsmul_eq_mul, ← Finset.sum_const]
    refine Finset.sum_congr rfl fun x hx => ?_
    obtain ⟨x1, x2⟩ := Finset.mem_filter.1 hx
    rw [hv d hd x (Finset.mem_range.1 x1), x2]

/-- C109: in 'exact' mode no variance is cut off: those of all measurements are larger by exactly the difference of the noise. -/
theorem C109_exact (sv : Solvers) (hs : sv.Fit) (hx : sv.Exact) (ops ops' : List Op) (i i' : ℕ) (a a' : LLGPArgs) (m m' : LLGP) (h : Held sv ops i a m)
    (h' : Held sv ops' i' a' m') (hn : ∀ ad ∈ m.fk.activeDims.map Prod.fst, ad.Nodup) (k : ℕ → ℕ) (f : ℕ → ℕ → ℕ) (hr : a.Repeats m.gp.inputDim k f a')
    (hno : a.normalize = false) (hmode : a.prediction = "exact") (hv : a.AveragesValues k f a') (hfk : m.fk.NoiseTimes k m'.fk) (Qs : List (NDArr ℝ)) (hQ : m.Accepts Qs)
    (e e' : Env) (he : e.Works) (he' : e'.Works) :
    ∃ r r', Predicts sv ops i Qs e (.ok r) ∧ Predicts sv ops' i' Qs e' (.ok r') ∧ ∀ d < m.gp.outputDim, ∀ j < (queryLens Qs).getD d 0,
      (r'.1.getD d []).getD j 0 = (r.1.getD d []).getD j 0 ∧ (r'.2.getD d []).getD j 0 = (r.2.getD d []).getD j 0 + (k d - 1) * m.fk.noise.getD d 0 := by
  obtain ⟨κ, f1, f2, f3, f4, f5, -, f7⟩ := h.facts hs
  obtain ⟨r0, z1, z2⟩ := C45_exact sv m _ κ Qs (f4 Qs hQ) e (held_exact hs h hmode) f2
  have F := f7 Qs e he
  rw [z1] at F
  rcases C109_averages sv hs hx ops ops' i i' a a' m m' h h' hn k f hr hno hv hfk Qs hQ e e' he he' with ⟨x, x1, -⟩ | ⟨r, r', r1, r2, r3⟩
  · cases predicts_unique F x1
  · cases predicts_unique F r1
    refine ⟨r0, r', r1, r2, fun d hd j hj => ?_⟩
    obtain ⟨t1, -, -, t4⟩ := r3 d hd j hj
    refine ⟨t1, t4 ?_⟩
    rw [f3] at hd
    obtain ⟨y1, y2, y3⟩ := z2 d hd j hj
    obtain ⟨n1, n2⟩ := (MadeFrom.scale f1).2.1 d (by rw [← made_D f1 f5]; exact hd)
    rw [y1, n1]
    exact mul_pos (lt_of_lt_of_le y3 y2) (pow_pos n2 2)

theorem setDimStep_noise (P : ℕ) (fk : FK) (n : List ℝ) (i : ℕ) (k : Kern) : setDimStep P { fk with noise := n } i k = { setDimStep P fk i k with noise := n } := by
  unfold setDimStep
  dsimp only
  split_ifs <;> rfl

theorem setInputDim_noise {fk fk' : FK} {P : ℕ} (hP : fk.P = none) (h : fk.setInputDim P = .ok fk') (n : List ℝ) : FK.setInputDim { fk with noise := n } P = .ok { fk' with noise := n } := by
  have hf : ∀ (l : List (ℕ × Kern)) (s : FK), l.foldl (fun s ik => setDimStep P s ik.1 ik.2) { s with noise := n } =
      { l.foldl (fun s ik => setDimStep P s ik.1 ik.2) s with noise := n } := by
    intro l
    induction l with
    | nil => exact fun s => rfl
    | cons x l ih =>
      intro s
      rw [List.foldl_cons, List.foldl_cons, setDimStep_noise, ih]
  unfold FK.setInputDim at h ⊢
  simp only [hP, reduceCtorEq, if_false, ne_eq, not_true_eq_false] at h ⊢
  rw [← Except.ok.inj h]
  have := hf (vmk fk.kernels.length fun i => (i, fk.kernels.getD i (.identity none))) { fk with P := some P }
  dsimp only at this
  rw [this]

/-- two points of the first output were measured twice, with results 0 and 2, and 2 and 4; the other model is given the averages 1 and 3 and half of the noise -/
example : ∃ (a a' : LLGPArgs) (r r' : Predicted) (noise : ℝ), 0 < noise ∧ a.Ys = [⟨[2], [1, 3]⟩, ⟨[2], [5, 7]⟩] ∧ a'.Ys = [⟨[4], [0, 2, 4, 2]⟩, ⟨[2], [5, 7]⟩] ∧
    Predicts exactSolvers [.new a quiet] 0 [⟨[1, 2], [0, 0]⟩, ⟨[2, 2], [0, 1, 1, 1]⟩] quiet (.ok r) ∧
    Predicts exactSolvers [.new a' quiet] 0 [⟨[1, 2], [0, 0]⟩, ⟨[2, 2], [0, 1, 1, 1]⟩] quiet (.ok r') ∧
    (r'.1.getD 0 []).getD 0 0 = (r.1.getD 0 []).getD 0 0 ∧ (r'.2.getD 0 []).getD 0 0 = (r.2.getD 0 []).getD 0 0 + noise ∧
    (r'.1.getD 1 []).getD 1 0 = (r.1.getD 1 []).getD 1 0 ∧ (r'.2.getD 1 []).getD 1 0 = (r.2.getD 1 []).getD 1 0 := by
  obtain ⟨fk, ⟨h1, h2, h3, h4, -⟩, h⟩ := exists_documented_grid
  have hd1 := h .exact false (some 5) (by simp)
  have hd : LLGPArgs.Documented ⟨[⟨[2, 2], [0, 0, 1, 1]⟩, ⟨[2, 2], [0, 1, 1, 0]⟩], [⟨[2], [1, 3]⟩, ⟨[2], [5, 7]⟩], false, .none, .none, gridChoice (some 5), false, "exact", 15, 1e-4, some fk⟩ 2 fk :=
    ⟨hd1.data, hd1.arraysX, hd1.arraysY, hd1.filled, rfl, hd1.fresh, hd1.wf, hd1.some, hd1.outputs, hd1.valid, hd1.dims, hd1.mode, hd1.lo, hd1.hi, hd1.m, hd1.sizes, hd1.spread⟩
  have hw := hd1.wf
  set k : ℕ → ℕ := fun d => if d = 0 then 2 else 1 with hk
  set fk2 : FK := { fk with noise := vmk 2 fun d => k d * fk.noise.getD d 0 } with hfk2
  have hd2 : LLGPArgs.Documented ⟨[⟨[2, 2], [0, 0, 1, 1]⟩, ⟨[2, 2], [0, 1, 1, 0]⟩], [⟨[2], [1, 3]⟩, ⟨[2], [5, 7]⟩], false, .none, .none, gridChoice (some 5), false, "exact", 15, 1e-4, some fk2⟩ 2 fk2 :=
    ⟨hd1.data, hd1.arraysX, hd1.arraysY, hd1.filled, rfl, ⟨hd1.fresh.1, hd1.fresh.2, hd1.fresh.3, hd1.fresh.4, hd1.fresh.5, hd1.fresh.6⟩,
      ⟨hw.Dpos, hw.vecs, hw.diags, by rw [hfk2]; simp [vmk_length, h4], hw.counts, hw.vec, hw.diag, hw.slfm, hw.slfmRank, hw.indep⟩, hd1.some, hd1.outputs, hd1.valid, hd1.dims, hd1.mode,
      hd1.lo, hd1.hi, hd1.m, hd1.sizes, hd1.spread⟩
  have hd' := documented_with_data hd2 (Xs := [⟨[4, 2], [0, 0, 0, 0, 1, 1, 1, 1]⟩, ⟨[2, 2], [0, 1, 1, 0]⟩]) (Ys := [⟨[4], [0, 2, 4, 2]⟩, ⟨[2], [5, 7]⟩])
    ⟨by simp, rfl, fun d hd => by
        have : d < 2 := hd
        interval_cases d
        · exact ⟨4, rfl, .inr rfl⟩
        · exact ⟨2, rfl, .inr rfl⟩, fun Y hY => .inr (by
        simp only [List.mem_cons, List.not_mem_nil, or_false] at hY
        rcases hY with rfl | rfl
        · have hv : varOf [0, 2, 4, 2] = 2 := by
            simp [varOf, meanOf, Finset.sum_range_succ]
            norm_num
          simp [sdOf, hv]
        · have hv : varOf [5, 7] = 1 := by
            simp [varOf, meanOf, Finset.sum_range_succ]
            norm_num
          simp [sdOf, hv])⟩
    (fun X hX => by
      simp only [List.mem_cons, List.not_mem_nil, or_false] at hX
      rcases hX with rfl | rfl <;> rfl)
    (fun Y hY => by
      simp only [List.mem_cons, List.not_mem_nil, or_false] at hY
      rcases hY with rfl | rfl <;> exact ⟨rfl, by simp⟩) rfl
    (fun c hc => ⟨⟨4, 2, [0, 0, 0, 0, 1, 1, 1, 1]⟩, by simp [padded], 0, by norm_num, ⟨4, 2, [0, 0, 0, 0, 1, 1, 1, 1]⟩, by simp [padded], 2, by norm_num, by
      interval_cases c <;> norm_num [Arr2.get]⟩)
  have kpos : ∀ d, 0 < k d := fun d => by rw [hk]; dsimp only; split_ifs <;> norm_num
  have noise2 : ∀ d < 2, fk2.noise.getD d 0 = k d * fk.noise.getD d 0 := fun d hd => by rw [hfk2]; exact vmk_getD_lt hd
  obtain ⟨m₀, -, i2, -, i4, i5, -, i7, -, i6⟩ := model_of_documented hd (mode := .exact) (metrics := false) rfl rfl h1 h2 h3 h4 rfl
  obtain ⟨m₁, -, j2, -, j4, j5, -, j7, -, j6⟩ := model_of_documented hd2 (mode := .exact) (metrics := false) rfl rfl h1 h2
    (fun d hd => by rw [noise2 d (by rw [← h4]; exact hd)]; exact mul_pos (by exact_mod_cast kpos d) (h3 d hd)) h4 rfl
  have e2 := setInputDim_noise hd1.fresh.1 i6 (vmk 2 fun d => k d * fk.noise.getD d 0)
  have e3 := Except.ok.inj (j6.symm.trans e2)
  obtain ⟨m, hm, f⟩ := held_new exactSolvers_fit (by norm_num) hd (by norm_num) rfl i6 i4
  obtain ⟨m', hm', f'⟩ := held_new exactSolvers_fit (by norm_num) hd' (by norm_num) rfl j6 j4
  obtain ⟨κ, x1, -, x3, x4, x5, -⟩ := hm.facts exactSolvers_fit
  have hP : m.gp.inputDim = 2 := same_inputDim i2 x5 f
  have hD : m.gp.outputDim = 2 := by rw [x3, f, i5]
  have hnoise : m₀.fk.noise = fk.noise := by
    obtain ⟨fk'', g1, g2⟩ := setInputDim_fresh fk 2 hd1.fresh
    rw [i6] at g1
    rw [Except.ok.inj g1, g2.same]
  obtain ⟨r, r', r1, r2, r3⟩ := C109_exact exactSolvers exactSolvers_fit (fun _ _ _ tol h _ => exactSolvers_exact h tol) _ _ 0 0 _ _ m m' hm hm' (by
      rw [f, i7]
      intro ad had
      simp only [List.map_cons, List.map_nil, List.mem_cons, List.not_mem_nil, or_false] at had
      rw [had]
      decide) k (fun d j => if d = 0 then j / 2 else j)
    (by
      rw [hP]
      refine ⟨⟨rfl, rfl, rfl, rfl, rfl⟩, fun c hc => ?_, rfl, fun d hd j hj => ?_, fun d hd j hj => ?_⟩
      · interval_cases c <;> simp [gridChoice, GridOpt.at]
      · have : d < 2 := hd
        interval_cases d
        · have hj : j < 4 := hj
          interval_cases j <;> refine ⟨by simp [queryLens], fun c hc => ?_⟩ <;> interval_cases c <;> simp [queryPoint]
        · have hj : j < 2 := hj
          exact ⟨hj, fun c hc => rfl⟩
      · have : d < 2 := hd
        interval_cases d
        · have hj : j < 2 := hj
          interval_cases j <;> rfl
        · have hj : j < 2 := hj
          interval_cases j <;> rfl)
    rfl rfl (fun d hd j hj => by
      have : d < 2 := hd
      interval_cases d
      · have hj : j < 2 := hj
        interval_cases j
        · show (1 : ℝ) = (∑ j ∈ ({0, 1} : Finset ℕ), ([0, 2, 4, 2] : List ℝ).getD j 0) / ((2 : ℕ) : ℝ)
          norm_num
        · show (3 : ℝ) = (∑ j ∈ ({2, 3} : Finset ℕ), ([0, 2, 4, 2] : List ℝ).getD j 0) / ((2 : ℕ) : ℝ)
          norm_num
      · have hj : j < 2 := hj
        interval_cases j
        · show (5 : ℝ) = (∑ j ∈ ({0} : Finset ℕ), ([5, 7] : List ℝ).getD j 0) / ((1 : ℕ) : ℝ)
          norm_num
        · show (7 : ℝ) = (∑ j ∈ ({1} : Finset ℕ), ([5, 7] : List ℝ).getD j 0) / ((1 : ℕ) : ℝ)
          norm_num)
    ⟨by rw [f, f', e3], fun d hd => by
      rw [f, i5] at hd
      rw [f', e3, f, hnoise]
      exact vmk_getD_lt hd⟩
    [⟨[1, 2], [0, 0]⟩, ⟨[2, 2], [0, 1, 1, 1]⟩] ⟨by
      rw [hP, hD]
      refine ⟨rfl, fun X hX => ?_⟩
      simp only [List.mem_cons, List.not_mem_nil, or_false] at hX
      rcases hX with rfl | rfl
      · exact ⟨1, .inr rfl⟩
      · exact ⟨2, .inr rfl⟩, fun X hX => by
      simp only [List.mem_cons, List.not_mem_nil, or_false] at hX
      rcases hX with rfl | rfl <;> rfl⟩ quiet quiet quiet_calm.1 quiet_calm.1
  obtain ⟨q1, q2⟩ := r3 0 (by rw [hD]; norm_num) 0 (by norm_num [queryLens])
  obtain ⟨q3, q4⟩ := r3 1 (by rw [hD]; norm_num) 1 (by norm_num [queryLens])
  refine ⟨_, _, r, r', fk.noise.getD 0 0, h3 0 (by rw [h4]; norm_num), rfl, rfl, r1, r2, q1, ?_, q3, ?_⟩
  · rw [q2, f, hnoise]
    norm_num [hk]
  · rw [q4]
    norm_num [hk]

end Verif
