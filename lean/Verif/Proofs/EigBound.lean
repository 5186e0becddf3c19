import Verif.Spec.Eig
import Verif.Proofs.Built
import Mathlib.Analysis.Matrix.PosDef
import Mathlib.Analysis.Matrix.Order
import Mathlib.LinearAlgebra.Matrix.Gershgorin

namespace Verif
open Matrix

theorem getD_mem {α : Type*} {l : List α} {i : ℕ} (d : α) (h : i < l.length) : l.getD i d ∈ l := by
  rw [getD_getElem d h]; exact List.getElem_mem h

theorem eigLE_iff {n : ℕ} {A : Matrix (Fin n) (Fin n) ℝ} (hA : A.IsHermitian) (b : ℝ) :
    EigLE A b ↔ (b • (1 : Matrix (Fin n) (Fin n) ℝ) - A).PosSemidef := by
  have hH : (b • (1 : Matrix (Fin n) (Fin n) ℝ) - A).IsHermitian := by
    refine IsHermitian.sub ?_ hA
    show (b • (1 : Matrix (Fin n) (Fin n) ℝ))ᴴ = _
    rw [conjTranspose_smul, conjTranspose_one]; rfl
  constructor
  · intro h
    rw [hH.posSemidef_iff_eigenvalues_nonneg]
    intro i
    have hv := hH.mulVec_eigenvectorBasis i
    set v : Fin n → ℝ := (hH.eigenvectorBasis i).ofLp with hvdef
    have hv0 : v ≠ 0 := by
      intro h0
      have := hH.eigenvectorBasis.orthonormal.ne_zero i
      exact this (by ext j; exact congrFun h0 j)
    have := h (b - hH.eigenvalues i) v hv0 (by
      rw [sub_mulVec, smul_mulVec, one_mulVec] at hv
      rw [sub_smul, ← hv]; abel)
    show 0 ≤ hH.eigenvalues i
    linarith
  · intro h μ v hv hAv
    have := h.dotProduct_mulVec_nonneg v
    rw [sub_mulVec, smul_mulVec, one_mulVec, hAv, ← sub_smul, dotProduct_smul, star_trivial, smul_eq_mul] at this
    have hp : 0 < v ⬝ᵥ v := by
      have h0 : 0 ≤ v ⬝ᵥ v := Finset.sum_nonneg fun _ _ => mul_self_nonneg _
      rcases h0.lt_or_eq with h | h
      · exact h
      · exact absurd (dotProduct_self_eq_zero.1 h.symm) hv
    nlinarith

theorem EigAbsLE.le {n : ℕ} {A : Matrix (Fin n) (Fin n) ℝ} {b : ℝ} (h : EigAbsLE A b) : EigLE A b :=
  fun μ v hv hA => (le_abs_self μ).trans (h μ v hv hA)

theorem EigAbsLE.neg_le {n : ℕ} {A : Matrix (Fin n) (Fin n) ℝ} {b : ℝ} (h : EigAbsLE A b) : EigLE (-A) b := by
  intro μ v hv hA
  have := h (-μ) v hv (by rw [neg_smul, ← hA, neg_mulVec, neg_neg])
  rw [abs_neg] at this
  exact (le_abs_self μ).trans this

/-! quadratic forms over index functions -/

/-- `Σ_ij x_i A_ij x_j` -/
def quad (n : ℕ) (A : ℕ → ℕ → ℝ) (x : ℕ → ℝ) : ℝ := ∑ i ∈ Finset.range n, ∑ j ∈ Finset.range n, x i * A i j * x j

def nrm (n : ℕ) (x : ℕ → ℝ) : ℝ := ∑ i ∈ Finset.range n, x i * x i

def QLE (n : ℕ) (A : ℕ → ℕ → ℝ) (b : ℝ) : Prop := ∀ x : ℕ → ℝ, quad n A x ≤ b * nrm n x

def Sym (n : ℕ) (A : ℕ → ℕ → ℝ) : Prop := ∀ i < n, ∀ j < n, A i j = A j i

theorem fnMatrix_isHermitian {n : ℕ} {A : ℕ → ℕ → ℝ} : (fnMatrix n n A).IsHermitian ↔ Sym n A := by
  constructor
  · intro h i hi j hj
    exact (h.apply ⟨i, hi⟩ ⟨j, hj⟩).symm
  · intro h
    ext i j
    exact h j j.2 i i.2

theorem quad_eq {n : ℕ} (A : ℕ → ℕ → ℝ) (x : ℕ → ℝ) :
    quad n A x = (fun i : Fin n => x i) ⬝ᵥ fnMatrix n n A *ᵥ (fun i : Fin n => x i) := by
  unfold quad
  simp only [dotProduct, mulVec, fnMatrix, Finset.sum_range]
  refine Finset.sum_congr rfl fun i _ => ?_
  rw [Finset.mul_sum]
  exact Finset.sum_congr rfl fun j _ => by ring

theorem nrm_eq {n : ℕ} (x : ℕ → ℝ) : nrm n x = (fun i : Fin n => x i) ⬝ᵥ (fun i : Fin n => x i) := by
  simp only [nrm, dotProduct, Finset.sum_range]

theorem nrm_nonneg (n : ℕ) (x : ℕ → ℝ) : 0 ≤ nrm n x := Finset.sum_nonneg fun _ _ => mul_self_nonneg _

/-- extend a vector by zero -/
def extV {n : ℕ} (v : Fin n → ℝ) (i : ℕ) : ℝ := if h : i < n then v ⟨i, h⟩ else 0

theorem extV_eq {n : ℕ} (v : Fin n → ℝ) : (fun i : Fin n => extV v i) = v := by
  funext i; simp [extV]

theorem psd_iff_quad {n : ℕ} {A : ℕ → ℕ → ℝ} :
    (fnMatrix n n A).PosSemidef ↔ Sym n A ∧ ∀ x, 0 ≤ quad n A x := by
  constructor
  · intro h
    refine ⟨fnMatrix_isHermitian.1 h.isHermitian, fun x => ?_⟩
    rw [quad_eq]
    simpa using h.dotProduct_mulVec_nonneg (fun i : Fin n => x i)
  · rintro ⟨h1, h2⟩
    refine PosSemidef.of_dotProduct_mulVec_nonneg (fnMatrix_isHermitian.2 h1) fun v => ?_
    have := h2 (extV v)
    rw [quad_eq, extV_eq] at this
    simpa using this

theorem eigLE_iff_qle {n : ℕ} {A : ℕ → ℕ → ℝ} (hA : Sym n A) (b : ℝ) : EigLE (fnMatrix n n A) b ↔ QLE n A b := by
  rw [eigLE_iff (fnMatrix_isHermitian.2 hA)]
  have key : ∀ v : Fin n → ℝ, star v ⬝ᵥ (b • (1 : Matrix (Fin n) (Fin n) ℝ) - fnMatrix n n A) *ᵥ v =
      b * (v ⬝ᵥ v) - v ⬝ᵥ fnMatrix n n A *ᵥ v := by
    intro v
    rw [sub_mulVec, smul_mulVec, one_mulVec, dotProduct_sub, dotProduct_smul, star_trivial, smul_eq_mul]
  constructor
  · intro h x
    have := h.dotProduct_mulVec_nonneg (fun i : Fin n => x i)
    rw [key] at this
    rw [quad_eq, nrm_eq]; linarith
  · intro h
    have hH : (b • (1 : Matrix (Fin n) (Fin n) ℝ) - fnMatrix n n A).IsHermitian := by
      refine IsHermitian.sub ?_ (fnMatrix_isHermitian.2 hA)
      show (b • (1 : Matrix (Fin n) (Fin n) ℝ))ᴴ = _
      rw [conjTranspose_smul, conjTranspose_one]; rfl
    refine PosSemidef.of_dotProduct_mulVec_nonneg hH fun v => ?_
    rw [key]
    have := h (extV v)
    rw [quad_eq, nrm_eq, extV_eq] at this
    linarith

theorem quad_congr {n : ℕ} {A B : ℕ → ℕ → ℝ} (h : ∀ i < n, ∀ j < n, A i j = B i j) (x : ℕ → ℝ) :
    quad n A x = quad n B x :=
  Finset.sum_congr rfl fun i hi => Finset.sum_congr rfl fun j hj => by
    rw [h i (Finset.mem_range.1 hi) j (Finset.mem_range.1 hj)]

/-! ### npMax -/

theorem foldl_max_le : ∀ (l : List ℝ) (a : ℝ), a ≤ l.foldl max a ∧ ∀ b ∈ l, b ≤ l.foldl max a
  | [], a => ⟨le_rfl, by simp⟩
  | c :: l, a => by
    obtain ⟨h1, h2⟩ := foldl_max_le l (max a c)
    refine ⟨(le_max_left a c).trans h1, fun b hb => ?_⟩
    rcases List.mem_cons.1 hb with rfl | hb
    · exact (le_max_right a b).trans h1
    · exact h2 b hb

theorem foldl_max_mem : ∀ (l : List ℝ) (a : ℝ), l.foldl max a ∈ a :: l
  | [], a => by simp
  | c :: l, a => by
    have := foldl_max_mem l (max a c)
    simp only [List.foldl_cons]
    rcases List.mem_cons.1 this with h | h
    · rw [h]
      rcases max_choice a c with h' | h' <;> rw [h'] <;> simp
    · simp [h]

theorem npMax_ge {l : List ℝ} {m : ℝ} (h : npMax l = .ok m) : ∀ b ∈ l, b ≤ m := by
  cases l with
  | nil => cases h
  | cons a l =>
    simp only [npMax, ok_eq] at h
    subst h
    obtain ⟨h1, h2⟩ := foldl_max_le l a
    intro b hb
    rcases List.mem_cons.1 hb with rfl | hb
    · exact h1
    · exact h2 b hb

theorem npMax_mem {l : List ℝ} {m : ℝ} (h : npMax l = .ok m) : m ∈ l := by
  cases l with
  | nil => cases h
  | cons a l =>
    simp only [npMax, ok_eq] at h
    subst h
    exact foldl_max_mem l a

/-! ### Toeplitz -/

theorem accumulateFrom_getD (s : ℝ) : ∀ (l : List ℝ) (k : ℕ), k < l.length →
    (accumulateFrom s l).getD k 0 = s + ∑ i ∈ Finset.range (k + 1), l.getD i 0
  | [], k, h => by simp at h
  | b :: l, 0, h => by simp [accumulateFrom]
  | b :: l, k + 1, h => by
    simp only [accumulateFrom, List.getD_cons_succ]
    rw [accumulateFrom_getD (s + b) l k (by simpa using h), Finset.sum_range_succ' _ (k + 1)]
    simp only [List.getD_cons_succ, List.getD_cons_zero]
    ring

theorem accumulate_getD (l : List ℝ) (k : ℕ) (hk : k < l.length) :
    (accumulate l).getD k 0 = ∑ i ∈ Finset.range (k + 1), l.getD i 0 := by
  cases l with
  | nil => simp at hk
  | cons a l =>
    cases k with
    | zero => simp [accumulate]
    | succ k =>
      simp only [accumulate, List.getD_cons_succ]
      rw [accumulateFrom_getD a l k (by simpa using hk), Finset.sum_range_succ' _ (k + 1)]
      simp only [List.getD_cons_succ, List.getD_cons_zero]
      ring

theorem list_sum_getD : ∀ l : List ℝ, l.sum = ∑ i ∈ Finset.range l.length, l.getD i 0
  | [] => rfl
  | a :: l => by
    rw [List.sum_cons, list_sum_getD l, List.length_cons, Finset.sum_range_succ']
    simp only [List.getD_cons_succ, List.getD_cons_zero]
    ring

/-- absolute row sum of a Toeplitz matrix -/
def rowAbs (t : ℕ → ℝ) (n k : ℕ) : ℝ := ∑ j ∈ Finset.range n, |t (absDiff k j)|

theorem rowAbs_succ (t : ℕ → ℝ) (n k : ℕ) (h : k + 1 < n) :
    rowAbs t n (k + 1) = rowAbs t n k + (|t (k + 1)| - |t (n - (k + 1))|) := by
  obtain ⟨m, rfl⟩ : ∃ m, n = m + 1 := ⟨n - 1, by omega⟩
  unfold rowAbs
  rw [Finset.sum_range_succ' _ m, Finset.sum_range_succ _ m]
  have e : ∀ j, absDiff (k + 1) (j + 1) = absDiff k j := by
    intro j; unfold absDiff; split <;> split <;> omega
  simp only [e]
  rw [show absDiff (k + 1) 0 = k + 1 by simp [absDiff], show absDiff k m = m + 1 - (k + 1) by
    unfold absDiff; split <;> omega]
  ring

theorem toeplitz_totals (top : List ℝ) (hn : top ≠ []) :
    let abstop := top.map fun t => |t|
    let totals := setSlice abstop 0 [abstop.sum]
    let totals := setSlice totals 1 (List.zipWith (· - ·) totals.tail abstop.tail.reverse)
    (accumulate totals).length = top.length ∧
    ∀ k < top.length, (accumulate totals).getD k 0 = rowAbs (fun d => top.getD d 0) top.length k := by
  intro abstop totals totals'
  obtain ⟨a, l, rfl⟩ : ∃ a l, top = a :: l := List.exists_cons_of_ne_nil hn
  have e1 : totals = abstop.sum :: l.map (fun t => |t|) := by simp [totals, abstop, setSlice]
  have e2 : totals' = abstop.sum :: List.zipWith (· - ·) (l.map fun t => |t|) (l.map fun t => |t|).reverse := by
    simp [totals', e1, setSlice, abstop]
  have hlen : totals'.length = (a :: l).length := by rw [e2]; simp
  refine ⟨by rw [accumulate_length, hlen], fun k hk => ?_⟩
  have hs : abstop.sum = rowAbs (fun d => (a :: l).getD d 0) (a :: l).length 0 := by
    unfold rowAbs
    rw [list_sum_getD]
    simp only [abstop, List.length_map]
    refine Finset.sum_congr rfl fun j hj => ?_
    have hj := Finset.mem_range.1 hj
    have : absDiff 0 j = j := by unfold absDiff; split <;> omega
    rw [this, getD_getElem 0 (by simpa using hj), getD_getElem 0 hj, List.getElem_map]
  rw [accumulate_getD _ _ (by rw [hlen]; exact hk)]
  induction k with
  | zero => simp [e2, hs]
  | succ k ih =>
    rw [Finset.sum_range_succ, ih (by omega), rowAbs_succ _ _ _ hk]
    congr 1
    rw [e2]
    simp only [List.getD_cons_succ]
    have hk' : k < l.length := by simpa using hk
    have h2 : l.length - 1 - k < l.length := by omega
    have : (a :: l).length - (k + 1) = (l.length - 1 - k) + 1 := by simp; omega
    rw [this]
    simp [hk', h2]

theorem eigAbsLE_of_rows {n : ℕ} {A : Matrix (Fin n) (Fin n) ℝ} {b : ℝ} (h : ∀ i, ∑ j, |A i j| ≤ b) : EigAbsLE A b := by
  intro μ v hv hA
  have hμ : Module.End.HasEigenvalue (Matrix.toLin' A) μ :=
    Module.End.hasEigenvalue_of_hasEigenvector (x := v)
      (Module.End.hasEigenvector_iff.2 ⟨Module.End.mem_eigenspace_iff.2 (by rw [toLin'_apply]; exact hA), hv⟩)
  obtain ⟨k, hk⟩ := eigenvalue_mem_ball hμ
  rw [Metric.mem_closedBall, Real.dist_eq] at hk
  have h1 := h k
  rw [← Finset.add_sum_erase _ _ (Finset.mem_univ k)] at h1
  simp only [Real.norm_eq_abs] at hk
  have := abs_sub_abs_le_abs_sub μ (A k k)
  linarith

theorem toeplitz_eigAbs {top : NDArr ℝ} {M : MatObj} {b : ℝ} (hw : top.WF) (h : toeplitzNew top = .ok M)
    (hb : M.upperEigBound = .ok b) : EigAbsLE M.sq b := by
  obtain ⟨-, h2, h3, h4, -, -, -, h8⟩ := toeplitz_ok h
  obtain ⟨r1, r2, hR⟩ := toeplitz_represents hw h
  rw [h8] at hb
  simp only [toeplitzUpperEigBound, bind_ok, pure_ok] at hb
  obtain ⟨m, hm, rfl⟩ := hb
  obtain ⟨t1, t2⟩ := toeplitz_totals top.data h3
  have hge := npMax_ge hm
  have hEPS : 0 ≤ EPS * (top.data.length : ℝ) := by unfold EPS; positivity
  refine eigAbsLE_of_rows fun i => ?_
  have hi : (i : ℕ) < top.data.length := by rw [← r1]; exact i.2
  have e : ∑ j, |M.sq i j| = rowAbs (fun d => top.data.getD d 0) top.data.length i := by
    unfold rowAbs
    rw [← r1, Finset.sum_range]
    refine Finset.sum_congr rfl fun j _ => ?_
    show |M.asNumpy.get i j| = _
    rw [hR.entry i.2 (by rw [h2]; exact j.2)]; rfl
  rw [e, ← t2 i hi]
  have hmem := hge _ (getD_mem (i := i) 0 (by rw [t1]; exact hi))
  have hnn : 0 ≤ m := le_trans (by rw [t2 i hi]; exact Finset.sum_nonneg fun _ _ => abs_nonneg _) hmem
  nlinarith

theorem diag_eigLE {v : NDArr ℝ} {M : MatObj} {b : ℝ} (hw : v.WF) (h : diagNew v = .ok M)
    (hb : M.upperEigBound = .ok b) : EigLE M.sq b := by
  obtain ⟨h1, h2, hR⟩ := diag_represents hw h
  have hl : v.data.length = M.rows := by simpa [NDArr.WF, h1] using hw
  have hbd : M.upperEigBound = npMax v.data := by
    simp only [diagNew, bind_ok] at h
    obtain ⟨_, _, _, _, h⟩ := h
    split at h
    · cases h
    · simp only [pure_ok] at h; subst h; rfl
  rw [hbd] at hb
  have hge := npMax_ge hb
  intro μ x hx hA
  obtain ⟨i, hi⟩ := Function.ne_iff.1 hx
  have := congrFun hA i
  simp only [mulVec, dotProduct, Pi.smul_apply, smul_eq_mul] at this
  have e : ∀ j : Fin M.rows, M.sq i j = if i = j then v.data.getD i 0 else 0 := by
    intro j
    show M.asNumpy.get i j = _
    rw [hR.entry i.2 (by rw [h2]; exact j.2)]
    simp [Fin.ext_iff]
  simp only [e, ite_mul, zero_mul, Finset.sum_ite_eq, Finset.mem_univ, if_true] at this
  have hμ : v.data.getD i 0 = μ := mul_right_cancel₀ hi this
  rw [← hμ]
  have hi' : (i : ℕ) < v.data.length := by rw [hl]; exact i.2
  rw [getD_getElem 0 hi']
  exact hge _ (List.getElem_mem hi')

theorem identity_eigLE {n : ℕ} {M : MatObj} {b : ℝ} (h : identityNew n = .ok M)
    (hb : M.upperEigBound = .ok b) : EigLE M.sq b := by
  obtain ⟨h1, h2, hR⟩ := identity_represents h
  have hbd : M.upperEigBound = .ok 1 := by
    simp only [identityNew, bind_ok, pure_ok] at h
    obtain ⟨_, _, rfl⟩ := h; rfl
  rw [hbd, ok_eq] at hb
  subst hb
  have e : M.sq = 1 := by
    ext i j
    show M.asNumpy.get i j = _
    rw [hR.entry i.2 (by rw [h2, ← h1]; exact j.2), Matrix.one_apply]
    simp [Fin.ext_iff]
  intro μ x hx hA
  rw [e, one_mulVec] at hA
  obtain ⟨i, hi⟩ := Function.ne_iff.1 hx
  have := congrFun hA i
  simp only [Pi.smul_apply, smul_eq_mul] at this
  have : μ = 1 := by
    have h' : (1 : ℝ) * x i = μ * x i := by rw [one_mul]; exact this
    exact (mul_right_cancel₀ hi h').symm
  exact this.le

theorem seqAll_ok {α : Type} : ∀ {l : List (Except PyErr α)} {r : List α}, seqAll l = .ok r →
    List.Forall₂ (fun e x => e = .ok x) l r
  | [], r, h => by simp only [seqAll, ok_eq] at h; subst h; exact .nil
  | a :: l, r, h => by
    simp only [seqAll, bind_ok, pure_ok] at h
    obtain ⟨x, hx, xs, hxs, rfl⟩ := h
    exact .cons hx (seqAll_ok hxs)

theorem quad_add (n : ℕ) (A B : ℕ → ℕ → ℝ) (x : ℕ → ℝ) : quad n (fun i j => A i j + B i j) x = quad n A x + quad n B x := by
  unfold quad
  rw [← Finset.sum_add_distrib]
  refine Finset.sum_congr rfl fun i _ => ?_
  rw [← Finset.sum_add_distrib]
  exact Finset.sum_congr rfl fun j _ => by ring

theorem quad_list_sum {α : Type*} (n : ℕ) (x : ℕ → ℝ) (f : α → ℕ → ℕ → ℝ) : ∀ l : List α,
    quad n (fun i j => (l.map fun a => f a i j).sum) x = (l.map fun a => quad n (f a) x).sum
  | [] => by simp [quad]
  | a :: l => by
    simp only [List.map_cons, List.sum_cons]
    rw [quad_add n (f a) (fun i j => (l.map fun a => f a i j).sum), quad_list_sum n x f l]

theorem sum_bound {Ks : List MatObj} {M : MatObj} (h : sumMatrixNew Ks = .ok M) {b : ℝ} (hb : M.upperEigBound = .ok b) :
    ∃ bs, List.Forall₂ (fun (K : MatObj) u => K.upperEigBound = .ok u) Ks bs ∧ b = bs.sum := by
  unfold sumMatrixNew at h
  split at h
  · cases h
  · rename_i K0 rest
    split at h
    · cases h
    · simp only [bind_ok, pure_ok] at h
      obtain ⟨_, _, rfl⟩ := h
      simp only [bind_ok, pure_ok] at hb
      obtain ⟨bs, hbs, rfl⟩ := hb
      exact ⟨bs, (List.forall₂_map_left_iff.1 (seqAll_ok hbs)), rfl⟩

theorem sum_eigLE {Ks : List MatObj} {M : MatObj} {b : ℝ} (hg : ∀ K ∈ Ks, Good K)
    (hs : ∀ K ∈ Ks, K.sq.IsHermitian) (hK : ∀ K ∈ Ks, ∀ u, K.upperEigBound = .ok u → EigLE K.sq u)
    (h : sumMatrixNew Ks = .ok M) (hsq : M.cols = M.rows) (hb : M.upperEigBound = .ok b) : M.sq.IsHermitian ∧ EigLE M.sq b := by
  obtain ⟨-, hsh⟩ := sumMatrix_ok h
  have hR := sumMatrix_represents (A := fun K => K.asNumpy.get) h hg
  obtain ⟨bs, hbs, rfl⟩ := sum_bound h hb
  have hent : ∀ i < M.rows, ∀ j < M.rows, M.asNumpy.get i j = (Ks.map fun K => K.asNumpy.get i j).sum := fun i hi j hj => by
    rw [hR.entry hi (by rw [hsq]; exact hj)]
  have hsym : ∀ K ∈ Ks, Sym M.rows K.asNumpy.get := fun K hK' => by
    have := fnMatrix_isHermitian.1 (hs K hK'); rw [(hsh K hK').1] at this; exact this
  have hSym : Sym M.rows M.asNumpy.get := fun i hi j hj => by
    rw [hent i hi j hj, hent j hj i hi]
    congr 1
    exact List.map_congr_left fun K hK' => hsym K hK' i hi j hj
  refine ⟨fnMatrix_isHermitian.2 hSym, ?_⟩
  show EigLE (fnMatrix _ _ _) _
  rw [eigLE_iff_qle hSym]
  intro x
  rw [quad_congr hent, quad_list_sum]
  have hq : ∀ K ∈ Ks, ∀ u, K.upperEigBound = .ok u → quad M.rows K.asNumpy.get x ≤ u * nrm M.rows x := fun K hK' u hu => by
    have := hK K hK' u hu
    have hs' := fnMatrix_isHermitian.1 (hs K hK')
    have := (eigLE_iff_qle hs' u).1 this x
    rwa [(hsh K hK').1] at this
  clear hent hSym hsym hR hsh hb h
  induction hbs with
  | nil => simp
  | cons hu hrest ih =>
    rename_i K u Ks' us
    simp only [List.map_cons, List.sum_cons, add_mul]
    have h1 := hq K (by simp) u hu
    have h2 := ih (fun K hK => hg K (by simp [hK])) (fun K hK => hs K (by simp [hK])) (fun K hK' => hK K (by simp [hK']))
      (fun K hK => hq K (by simp [hK]))
    linarith

end Verif
