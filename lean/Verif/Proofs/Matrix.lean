import Verif.Spec.LinAlg
import Verif.Proofs.Base

namespace Verif

theorem flatMap_vmk {α : Type*} (k r : ℕ) (f : ℕ → ℕ → α) :
    ((List.range k).flatMap fun i => vmk r (f i)) = vmk (k * r) fun t => f (t / r) (t % r) := by
  induction k with
  | zero => simp [vmk]
  | succ k ih =>
    rw [List.range_succ, List.flatMap_append, ih]
    simp only [List.flatMap_cons, List.flatMap_nil, List.append_nil]
    rw [Nat.succ_mul]
    unfold vmk
    rw [List.range_add, List.map_append, List.map_map]
    congr 1
    refine List.map_congr_left fun j hj => ?_
    have hj := List.mem_range.1 hj
    simp only [Function.comp]
    rw [idx_div hj, idx_mod hj]

theorem flatMap_vmk_of {α : Type*} (k r : ℕ) (f : ℕ → ℕ → α) :
    (⟨k, r, (List.range k).flatMap fun i => vmk r (f i)⟩ : Arr2 α) = Arr2.of k r f := by
  rw [flatMap_vmk]; rfl

theorem defaultMatmat_eq {rows cols : ℕ} {mv : List ℝ → List ℝ} {A : ℕ → ℕ → ℝ}
    (h : ∀ x : List ℝ, x.length = cols →
      mv x = vmk rows fun i => ∑ j ∈ Finset.range cols, A i j * x.getD j 0)
    (X : Arr2 ℝ) (hX : X.rows = cols) :
    defaultMatmat rows mv X =
      Arr2.of rows X.cols fun i k => ∑ j ∈ Finset.range cols, A i j * X.get j k := by
  unfold defaultMatmat
  have h1 : ((List.range X.cols).flatMap fun i => mv (X.col i)) =
      (List.range X.cols).flatMap fun k => vmk rows fun i => ∑ j ∈ Finset.range cols, A i j * X.get j k := by
    refine List.flatMap_congr fun k _ => ?_
    rw [h _ (by simp [hX])]
    refine vmk_congr fun i _ => Finset.sum_congr rfl fun j hj => ?_
    rw [Arr2.col_getD (by rw [hX]; exact Finset.mem_range.1 hj)]
  simp only [h1]
  rw [flatMap_vmk_of]
  exact Arr2.of_congr fun i hi j hj => Arr2.of_get hj hi

theorem matmat_eye {rows cols : ℕ} {A : ℕ → ℕ → ℝ} :
    (Arr2.of rows cols fun i k => ∑ j ∈ Finset.range cols, A i j * (Arr2.eye cols).get j k)
      = Arr2.of rows cols A := by
  refine Arr2.of_congr fun i _ k hk => ?_
  rw [Finset.sum_eq_single k]
  · simp [Arr2.eye, Arr2.of_get hk hk]
  · intro j hj hjk
    simp [Arr2.eye, Arr2.of_get (Finset.mem_range.1 hj) hk, hjk]
  · intro h; exact absurd (Finset.mem_range.2 hk) h

/-- build `Represents` for a class using the default `matmat` -/
theorem Represents.ofDefault {M : MatObj} {A : ℕ → ℕ → ℝ} (rpos : 0 < M.rows) (cpos : 0 < M.cols)
    (mv : ∀ x : List ℝ, x.length = M.cols →
      M.matvec x = vmk M.rows fun i => ∑ j ∈ Finset.range M.cols, A i j * x.getD j 0)
    (mm : M.matmat = defaultMatmat M.rows M.matvec)
    (an : M.asNumpy = Arr2.of M.rows M.cols A) : Represents M A :=
  ⟨rpos, cpos, mv, fun X _ hX => by rw [mm]; exact defaultMatmat_eq mv X hX, an⟩

theorem Represents.congr {M : MatObj} {A B : ℕ → ℕ → ℝ} (h : Represents M A)
    (hab : ∀ i < M.rows, ∀ j < M.cols, A i j = B i j) : Represents M B := by
  refine ⟨h.rpos, h.cpos, fun x hx => ?_, fun X hX hr => ?_, ?_⟩
  · rw [h.matvec x hx]
    exact vmk_congr fun i hi => Finset.sum_congr rfl fun j hj => by
      rw [hab i hi j (Finset.mem_range.1 hj)]
  · rw [h.matmat X hX hr]
    exact Arr2.of_congr fun i hi k _ => Finset.sum_congr rfl fun j hj => by
      rw [hab i hi j (Finset.mem_range.1 hj)]
  · rw [h.asNumpy]; exact Arr2.of_congr hab

theorem Represents.matvec_length {M : MatObj} {A : ℕ → ℕ → ℝ} (h : Represents M A) {x : List ℝ}
    (hx : x.length = M.cols) : (M.matvec x).length = M.rows := by
  rw [h.matvec x hx]; simp

theorem matrixInit_ok {n m : ℕ} {u : Unit} : matrixInit n m = .ok u ↔ 0 < n ∧ 0 < m := by
  unfold matrixInit
  split <;> simp <;> omega

theorem matrixInit_eq {n m : ℕ} (hn : 0 < n) (hm : 0 < m) : matrixInit n m = .ok () :=
  matrixInit_ok.2 ⟨hn, hm⟩

theorem bind_ok {α β : Type} {e : Except PyErr α} {f : α → Except PyErr β} {b : β} :
    (e >>= f) = .ok b ↔ ∃ a, e = .ok a ∧ f a = .ok b := by
  cases e <;> simp [bind, Except.bind]

theorem pure_ok {α : Type*} {a b : α} : (pure a : Except PyErr α) = .ok b ↔ a = b := by
  simp [pure, Except.pure]

theorem ok_eq {α : Type*} {a b : α} : (Except.ok a : Except PyErr α) = .ok b ↔ a = b := by simp

/-! ### wrap -/

theorem wrapNew_ok {n m : ℕ} {mvm : List ℝ → List ℝ} {M : MatObj} (h : wrapNew n m mvm = .ok M) :
    0 < n ∧ 0 < m ∧ M.rows = n ∧ M.cols = m ∧ M.matvec = mvm ∧ M.matmat = defaultMatmat n mvm ∧
      M.asNumpy = defaultMatmat n mvm (Arr2.eye m) := by
  simp only [wrapNew, bind_ok, pure_ok] at h
  obtain ⟨_, h1, rfl⟩ := h
  obtain ⟨h1, h2⟩ := matrixInit_ok.1 h1
  exact ⟨h1, h2, rfl, rfl, rfl, rfl, rfl⟩

theorem wrap_represents {n m : ℕ} {mvm : List ℝ → List ℝ} {M : MatObj} {A : ℕ → ℕ → ℝ}
    (h : wrapNew n m mvm = .ok M)
    (hA : ∀ x : List ℝ, x.length = m →
      mvm x = vmk n fun i => ∑ j ∈ Finset.range m, A i j * x.getD j 0) :
    Represents M A := by
  obtain ⟨h1, h2, rfl, rfl, h5, h6, h7⟩ := wrapNew_ok h
  refine Represents.ofDefault h1 h2 (by rw [h5]; exact hA) (by rw [h6, h5]) ?_
  rw [h7, defaultMatmat_eq hA _ rfl]
  exact matmat_eye

/-! ### dense -/

theorem numpyMatrix_represents {a : NDArr ℝ} {M : MatObj} (ha : a.WF) (h : numpyMatrixNew a = .ok M) :
    a.shape = [M.rows, M.cols] ∧ Represents M (fun i j => a.data.getD (i * M.cols + j) 0) := by
  unfold numpyMatrixNew at h
  split at h
  · rename_i n m hs
    simp only [bind_ok, pure_ok] at h
    obtain ⟨_, h1, rfl⟩ := h
    obtain ⟨h1, h2⟩ := matrixInit_ok.1 h1
    refine ⟨hs, ⟨h1, h2, fun x _ => rfl, fun X _ _ => rfl, ?_⟩⟩
    refine Arr2.eq_of (A := ⟨n, m, a.data⟩) ?_ (fun i hi j hj => rfl)
    simpa [Arr2.WF, NDArr.WF, hs] using ha
  · cases h

/-! ### identity -/

theorem identity_represents {n : ℕ} {M : MatObj} (h : identityNew n = .ok M) :
    M.rows = n ∧ M.cols = n ∧ Represents M (fun i j => if i = j then 1 else 0) := by
  simp only [identityNew, bind_ok, pure_ok] at h
  obtain ⟨_, h1, rfl⟩ := h
  obtain ⟨h1, h2⟩ := matrixInit_ok.1 h1
  refine ⟨rfl, rfl, ⟨h1, h2, fun x hx => ?_, fun X hX hr => ?_, rfl⟩⟩
  · refine eq_vmk 0 hx fun i hi => ?_
    simp only at hi ⊢
    simp [Finset.sum_ite_eq, hi]
  · simp only at hr ⊢
    subst hr
    refine Arr2.eq_of hX fun i hi j hj => ?_
    simp [Finset.sum_ite_eq, hi]

/-! ### diag -/

theorem diag_represents {v : NDArr ℝ} {M : MatObj} (hv : v.WF) (h : diagNew v = .ok M) :
    v.shape = [M.rows] ∧ M.cols = M.rows ∧
      Represents M (fun i j => if i = j then v.data.getD i 0 else 0) := by
  simp only [diagNew, bind_ok] at h
  obtain ⟨n, hn, _, h1, h2⟩ := h
  split at h2
  · cases h2
  · rename_i hd
    simp only [pure_ok] at h2
    subst h2
    obtain ⟨h1, h2⟩ := matrixInit_ok.1 h1
    have hs : v.shape = [n] := by
      unfold NDArr.len at hn
      unfold NDArr.ndim at hd
      split at hn
      · cases hn
      · rename_i k l hl
        simp only [ok_eq] at hn
        subst hn
        rw [hl] at hd ⊢
        simp at hd
        simp [hd]
    have hlen : v.data.length = n := by simpa [NDArr.WF, hs] using hv
    refine ⟨hs, rfl, ⟨h1, h2, fun x hx => ?_, fun X hX hr => ?_, rfl⟩⟩
    · simp only at hx ⊢
      refine eq_vmk 0 (by simp [hx, hlen]) fun i hi => ?_
      rw [vmul_getD (by rw [hx, hlen])]
      simp [Finset.sum_ite_eq, hi, mul_comm]
    · simp only at hr ⊢
      refine Arr2.of_congr fun i hi j hj => ?_
      simp [ite_mul, Finset.sum_ite_eq, hi]

/-! ### sum -/

theorem foldl_vadd_length {γ : Type*} (f : γ → List ℝ) (n : ℕ) : ∀ (l : List γ) (s : List ℝ), s.length = n →
    (∀ K ∈ l, (f K).length = n) → (l.foldl (fun s K => vadd s (f K)) s).length = n ∧
      ∀ i, (l.foldl (fun s K => vadd s (f K)) s).getD i 0 = s.getD i 0 + (l.map fun K => (f K).getD i 0).sum
  | [], s, hs, _ => by simp [hs]
  | K :: l, s, hs, h => by
    have hK := h K (by simp)
    have hs' : (vadd s (f K)).length = n := by simp [hs, hK]
    obtain ⟨h1, h2⟩ := foldl_vadd_length f n l _ hs' (fun K' hK' => h K' (by simp [hK']))
    refine ⟨h1, fun i => ?_⟩
    simp only [List.foldl_cons, h2 i, List.map_cons, List.sum_cons]
    rw [vadd_getD (by rw [hs, hK])]
    ring

theorem foldl_add_of {γ : Type*} (f : γ → ℕ → ℕ → ℝ) (r c : ℕ) : ∀ (l : List γ) (g : ℕ → ℕ → ℝ),
    l.foldl (fun s K => s.add (Arr2.of r c (f K))) (Arr2.of r c g) =
      Arr2.of r c fun i j => g i j + (l.map fun K => f K i j).sum
  | [], g => by simp
  | K :: l, g => by
    have : (Arr2.of r c g).add (Arr2.of r c (f K)) = Arr2.of r c fun i j => g i j + f K i j := by
      unfold Arr2.add
      refine Arr2.of_congr fun i (hi : i < r) j (hj : j < c) => ?_
      rw [Arr2.of_get hi hj, Arr2.of_get hi hj]
    rw [List.foldl_cons, this, foldl_add_of f r c l]
    refine Arr2.of_congr fun i hi j hj => ?_
    simp; ring

theorem sumMatrix_ok {Ks : List MatObj} {M : MatObj} (h : sumMatrixNew Ks = .ok M) :
    Ks ≠ [] ∧ ∀ K ∈ Ks, K.rows = M.rows ∧ K.cols = M.cols := by
  unfold sumMatrixNew at h
  split at h
  · cases h
  · rename_i K0 rest
    split at h
    · cases h
    · rename_i hc
      simp only [bind_ok, pure_ok] at h
      obtain ⟨_, h1, rfl⟩ := h
      refine ⟨by simp, fun K hK => ?_⟩
      simp only [ne_eq, not_not] at hc
      rw [Finset.card_eq_one] at hc
      obtain ⟨a, ha⟩ := hc
      have e1 : (K.rows, K.cols) = a := by
        rw [← Finset.mem_singleton, ← ha, List.mem_toFinset]
        exact List.mem_map_of_mem hK
      have e2 : (K0.rows, K0.cols) = a := by
        rw [← Finset.mem_singleton, ← ha, List.mem_toFinset]
        exact List.mem_map_of_mem (by simp)
      rw [← e2] at e1
      simpa using e1

theorem sumMatrix_represents {Ks : List MatObj} {M : MatObj} {A : MatObj → ℕ → ℕ → ℝ}
    (h : sumMatrixNew Ks = .ok M) (hK : ∀ K ∈ Ks, Represents K (A K)) :
    Represents M (fun i j => (Ks.map fun K => A K i j).sum) := by
  obtain ⟨-, hsh⟩ := sumMatrix_ok h
  unfold sumMatrixNew at h
  split at h
  · cases h
  · rename_i K0 rest
    split at h
    · cases h
    · rename_i hcard
      simp only [bind_ok, pure_ok] at h
      obtain ⟨_, h1, rfl⟩ := h
      obtain ⟨h1, h2⟩ := matrixInit_ok.1 h1
      simp only at hsh
      refine Represents.ofDefault h1 h2 (fun x hx => ?_) rfl ?_
      · simp only at hx ⊢
        have hl : ∀ K ∈ rest, (K.matvec x).length = K0.rows := fun K hKm => by
          rw [(hK K (by simp [hKm])).matvec_length (by rw [hx, (hsh K (by simp [hKm])).2]),
            (hsh K (by simp [hKm])).1]
        obtain ⟨e1, e2⟩ := foldl_vadd_length (fun K => K.matvec x) K0.rows rest (K0.matvec x)
          ((hK K0 (by simp)).matvec_length hx) hl
        refine eq_vmk 0 e1 fun i hi => ?_
        rw [e2 i, (hK K0 (by simp)).matvec x hx, vmk_getD_lt hi]
        have : (rest.map fun K => (K.matvec x).getD i 0) =
            rest.map fun K => ∑ j ∈ Finset.range K0.cols, A K i j * x.getD j 0 := by
          refine List.map_congr_left fun K hKm => ?_
          rw [(hK K (by simp [hKm])).matvec x (by rw [hx, (hsh K (by simp [hKm])).2]),
            vmk_getD_lt (by rw [(hsh K (by simp [hKm])).1]; exact hi), (hsh K (by simp [hKm])).2]
        rw [this]
        clear this e1 e2 hl hK hsh hcard
        induction rest with
        | nil => simp
        | cons K rest ih =>
          simp only [List.map_cons, List.sum_cons] at ih ⊢
          rw [← add_assoc, add_right_comm, ih, ← Finset.sum_add_distrib]
          exact Finset.sum_congr rfl fun j _ => by ring
      · simp only
        have : ∀ (l : List MatObj) (s : Arr2 ℝ), (∀ K ∈ l, K.asNumpy = Arr2.of K0.rows K0.cols (A K)) →
            l.foldl (fun s K => s.add K.asNumpy) s =
              l.foldl (fun s K => s.add (Arr2.of K0.rows K0.cols (A K))) s := by
          intro l
          induction l with
          | nil => intros; rfl
          | cons K l ih =>
            intro s hs
            rw [List.foldl_cons, List.foldl_cons, hs K (by simp)]
            exact ih _ fun K' h' => hs K' (by simp [h'])
        rw [this rest _ fun K hKm => by
          rw [(hK K (by simp [hKm])).asNumpy, (hsh K (by simp [hKm])).1, (hsh K (by simp [hKm])).2],
          (hK K0 (by simp)).asNumpy, foldl_add_of]
        exact Arr2.of_congr fun i _ j _ => by simp

end Verif
