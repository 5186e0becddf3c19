import Verif.Proofs.Matrix
import Mathlib.Tactic.IntervalCases

namespace Verif

/-! ### composition -/

/-- entries of the ordered matrix product of a chain of operators -/
def prodEntry (A : MatObj → ℕ → ℕ → ℝ) : List MatObj → ℕ → ℕ → ℝ
  | [] => fun i j => if i = j then 1 else 0
  | [M] => A M
  | M :: M' :: rest => fun i k =>
      (List.range M.cols).foldr (fun j s => A M i j * prodEntry A (M' :: rest) j k + s) 0

/-- inner dimensions agree -/
def Composable : List MatObj → Prop
  | [] => True
  | [_] => True
  | M :: M' :: rest => M.cols = M'.rows ∧ Composable (M' :: rest)

theorem foldr_range_sum (n : ℕ) (f : ℕ → ℝ) :
    (List.range n).foldr (fun j s => f j + s) 0 = ∑ j ∈ Finset.range n, f j := by
  have h : ∀ l : List ℕ, l.foldr (fun j s => f j + s) 0 = (l.map f).sum := fun l => by
    induction l with
    | nil => rfl
    | cons a l ih => simp [ih]
  rw [h]
  induction n with
  | zero => simp
  | succ n ih => rw [List.range_succ, Finset.sum_range_succ, List.map_append, List.sum_append, ih]; simp

theorem prodEntry_cons (A : MatObj → ℕ → ℕ → ℝ) (M M' : MatObj) (rest : List MatObj) (i k : ℕ) :
    prodEntry A (M :: M' :: rest) i k =
      ∑ j ∈ Finset.range M.cols, A M i j * prodEntry A (M' :: rest) j k :=
  foldr_range_sum _ _

theorem comp_matvec {A : MatObj → ℕ → ℕ → ℝ} : ∀ (mats : List MatObj) (first last : MatObj),
    mats.head? = some first → mats.getLast? = some last → Composable mats →
    (∀ M ∈ mats, Represents M (A M)) → ∀ x : List ℝ, x.length = last.cols →
    mats.foldr (fun M x => M.matvec x) x =
      vmk first.rows fun i => ∑ j ∈ Finset.range last.cols, prodEntry A mats i j * x.getD j 0
  | [], _, _, h, _, _, _, _, _ => by simp at h
  | [M], f, l, hf, hl, _, hR, x, hx => by
    simp at hf hl; subst hf; subst hl
    simpa [prodEntry] using (hR M (by simp)).matvec x hx
  | M :: M' :: rest, f, l, hf, hl, hc, hR, x, hx => by
    simp only [List.head?_cons, Option.some.injEq] at hf
    subst hf
    have hl' : (M' :: rest).getLast? = some l := by simpa using hl
    have ih := comp_matvec (M' :: rest) M' l rfl hl' hc.2 (fun K hK => hR K (by simp [hK])) x hx
    rw [List.foldr_cons, ih, (hR M (by simp)).matvec _ (by simp [hc.1])]
    refine vmk_congr fun i _ => ?_
    calc _ = ∑ j ∈ Finset.range M.cols, ∑ k ∈ Finset.range l.cols,
            A M i j * prodEntry A (M' :: rest) j k * x.getD k 0 := by
          refine Finset.sum_congr rfl fun j hj => ?_
          rw [vmk_getD_lt (by rw [← hc.1]; exact Finset.mem_range.1 hj), Finset.mul_sum]
          exact Finset.sum_congr rfl fun k _ => by ring
      _ = _ := by
          rw [Finset.sum_comm]
          refine Finset.sum_congr rfl fun k _ => ?_
          rw [prodEntry_cons, Finset.sum_mul]

theorem comp_matmat {A : MatObj → ℕ → ℕ → ℝ} : ∀ (mats : List MatObj) (first last : MatObj),
    mats.head? = some first → mats.getLast? = some last → Composable mats →
    (∀ M ∈ mats, Represents M (A M)) → ∀ X : Arr2 ℝ, X.WF → X.rows = last.cols →
    mats.foldr (fun M X => M.matmat X) X =
      Arr2.of first.rows X.cols fun i k => ∑ j ∈ Finset.range last.cols, prodEntry A mats i j * X.get j k
  | [], _, _, h, _, _, _, _, _, _ => by simp at h
  | [M], f, l, hf, hl, _, hR, x, hw, hx => by
    simp at hf hl; subst hf; subst hl
    simpa [prodEntry] using (hR M (by simp)).matmat x hw hx
  | M :: M' :: rest, f, l, hf, hl, hc, hR, X, hw, hX => by
    simp only [List.head?_cons, Option.some.injEq] at hf
    subst hf
    have hl' : (M' :: rest).getLast? = some l := by simpa using hl
    have ih := comp_matmat (M' :: rest) M' l rfl hl' hc.2 (fun K hK => hR K (by simp [hK])) X hw hX
    rw [List.foldr_cons, ih, (hR M (by simp)).matmat _ (Arr2.of_wf _ _ _) (by simp [hc.1])]
    refine Arr2.of_congr fun i _ k hk => ?_
    simp only [Arr2.of_cols] at hk
    calc _ = ∑ j ∈ Finset.range M.cols, ∑ q ∈ Finset.range l.cols,
            A M i j * prodEntry A (M' :: rest) j q * X.get q k := by
          refine Finset.sum_congr rfl fun j hj => ?_
          rw [Arr2.of_get (by rw [← hc.1]; exact Finset.mem_range.1 hj) hk, Finset.mul_sum]
          exact Finset.sum_congr rfl fun k _ => by ring
      _ = _ := by
          rw [Finset.sum_comm]
          refine Finset.sum_congr rfl fun k _ => ?_
          rw [prodEntry_cons, Finset.sum_mul]

theorem composition_ok {mats : List MatObj} {M : MatObj} (h : compositionNew mats = .ok M) :
    ∃ first last, mats.head? = some first ∧ mats.getLast? = some last ∧ 0 < first.rows ∧ 0 < last.cols ∧
      M.rows = first.rows ∧ M.cols = last.cols ∧
      M.matvec = (fun x => mats.foldr (fun M x => M.matvec x) x) ∧
      M.matmat = (fun X => mats.foldr (fun M X => M.matmat X) X) ∧
      M.asNumpy = mats.foldr (fun M X => M.matmat X) (Arr2.eye last.cols) := by
  unfold compositionNew at h
  split at h
  · rename_i f l hf hl
    simp only [bind_ok, pure_ok] at h
    obtain ⟨_, h1, rfl⟩ := h
    obtain ⟨h1, h2⟩ := matrixInit_ok.1 h1
    refine ⟨f, l, hf, hl, h1, h2, rfl, rfl, ?_, ?_, ?_⟩ <;> simp [List.foldl_reverse]
  · cases h

theorem composition_represents {mats : List MatObj} {M : MatObj} {A : MatObj → ℕ → ℕ → ℝ}
    (h : compositionNew mats = .ok M) (hc : Composable mats) (hR : ∀ K ∈ mats, Represents K (A K)) :
    Represents M (prodEntry A mats) := by
  obtain ⟨f, l, hf, hl, h1, h2, hr, hcl, hmv, hmm, han⟩ := composition_ok h
  refine ⟨by omega, by omega, fun x hx => ?_, fun X hw hX => ?_, ?_⟩
  · rw [hmv, hr, hcl]; exact comp_matvec mats f l hf hl hc hR x (by omega)
  · rw [hmm, hr, hcl]; exact comp_matmat mats f l hf hl hc hR X hw (by omega)
  · rw [han, hr, hcl, comp_matmat mats f l hf hl hc hR (Arr2.eye l.cols) (Arr2.of_wf _ _ _) rfl]
    exact matmat_eye

/-! ### Kronecker -/

theorem ofVec_eq {x : List ℝ} {r c : ℕ} (hc : 0 < c) (hx : x.length = r * c) :
    Arr2.ofVec x c = Arr2.of r c fun i j => x.getD (i * c + j) 0 := by
  have hr : x.length / c = r := by rw [hx, Nat.mul_div_cancel _ hc]
  have hw : (Arr2.ofVec x c).WF := by
    show x.length = x.length / c * c
    rw [hr, hx]
  have := Arr2.eq_of hw (f := fun i j => x.getD (i * c + j) 0) (fun i _ j _ => rfl)
  rw [this]
  simp [Arr2.ofVec, hr]

theorem reshape_self {r c : ℕ} (hc : 0 < c) (f : ℕ → ℕ → ℝ) :
    (Arr2.of r c f).reshapeCols c = Arr2.of r c f := by
  simp [Arr2.reshapeCols, Arr2.ofVec, Arr2.of, Nat.mul_div_cancel _ hc]

theorem of_T {r c : ℕ} (f : ℕ → ℕ → ℝ) : (Arr2.of r c f).T = Arr2.of c r fun i j => f j i :=
  Arr2.of_congr fun _ hi _ hj => Arr2.of_get hj hi

theorem kronecker_represents {A B M : MatObj} {a b : ℕ → ℕ → ℝ} (hA : Represents A a)
    (hB : Represents B b) (h : kroneckerNew A B = .ok M) :
    M.rows = A.rows * B.rows ∧ M.cols = A.cols * B.cols ∧
    Represents M (fun i j => a (i / B.rows) (j / B.cols) * b (i % B.rows) (j % B.cols)) := by
  simp only [kroneckerNew, bind_ok, pure_ok] at h
  obtain ⟨_, h1, rfl⟩ := h
  obtain ⟨h1, h2⟩ := matrixInit_ok.1 h1
  refine ⟨rfl, rfl, Represents.ofDefault h1 h2 (fun x hx => ?_) rfl ?_⟩
  · simp only at hx ⊢
    rw [ofVec_eq hB.cpos hx, of_T, hB.matmat _ (Arr2.of_wf _ _ _) rfl]
    simp only [Arr2.of_cols]
    rw [reshape_self hA.cpos, of_T, hA.matmat _ (Arr2.of_wf _ _ _) rfl]
    simp only [Arr2.of_cols]
    show vmk _ _ = _
    refine vmk_congr fun t ht => ?_
    obtain ⟨t1, t2, -⟩ := idx_split ht
    rw [sum_range_mul]
    refine Finset.sum_congr rfl fun l hl => ?_
    rw [Arr2.of_get (Finset.mem_range.1 hl) t2, Finset.mul_sum]
    refine Finset.sum_congr rfl fun j hj => ?_
    have hj := Finset.mem_range.1 hj
    rw [Arr2.of_get hj (Finset.mem_range.1 hl), idx_div hj, idx_mod hj]
    ring
  · simp only [hA.asNumpy, hB.asNumpy, Arr2.of_rows, Arr2.of_cols]
    refine Arr2.of_congr fun i hi j hj => ?_
    obtain ⟨i1, i2, -⟩ := idx_split hi
    obtain ⟨j1, j2, -⟩ := idx_split hj
    rw [Arr2.of_get i1 j1, Arr2.of_get i2 j2]

/-! ### SKI -/

theorem Represents.entry {M : MatObj} {A : ℕ → ℕ → ℝ} (h : Represents M A) {i j : ℕ}
    (hi : i < M.rows) (hj : j < M.cols) : M.asNumpy.get i j = A i j := by
  rw [h.asNumpy, Arr2.of_get hi hj]

/-- an operator is consistent: its products are those of its own dense form -/
def Good (M : MatObj) : Prop := Represents M M.asNumpy.get

theorem Represents.good {M : MatObj} {A : ℕ → ℕ → ℝ} (h : Represents M A) : Good M :=
  h.congr fun _ hi _ hj => (h.entry hi hj).symm

theorem ski_represents {K M : MatObj} {W WT : Arr2 ℝ} {k : ℕ → ℕ → ℝ} (hK : Represents K k)
    (hsq : K.rows = W.cols) (hc : K.cols = W.cols) (hWT : WT = W.T)
    (h : skiNew K W WT = .ok M) :
    M.rows = W.rows ∧ M.cols = W.rows ∧
    Represents M (fun i j => ∑ p ∈ Finset.range W.cols, ∑ q ∈ Finset.range W.cols,
      W.get i p * k p q * W.get j q) := by
  simp only [skiNew, bind_ok, pure_ok] at h
  obtain ⟨w, hw, wt, hwt, comp, hcomp, rfl⟩ := h
  have rw' := wrap_represents (A := fun i j => W.get i j) hw (fun x hx => rfl)
  have rwt := wrap_represents (A := fun i j => WT.get i j) hwt (fun x hx => rfl)
  obtain ⟨w1, w2, w3, w4, w5, w6, w7⟩ := wrapNew_ok hw
  obtain ⟨t1, t2, t3, t4, t5, t6, t7⟩ := wrapNew_ok hwt
  obtain ⟨f, l, hf, hl, h1, h2, hr, hcl, -⟩ := composition_ok hcomp
  simp at hf hl; subst hf; subst hl
  have hWTr : WT.rows = W.cols := by rw [hWT]; rfl
  have hWTc : WT.cols = W.rows := by rw [hWT]; rfl
  have hcR := composition_represents hcomp ⟨by rw [w4, hsq], by rw [hc, t3, hWTr], trivial⟩
    (A := fun M => M.asNumpy.get) (by
      intro M hM
      simp at hM
      rcases hM with rfl | rfl | rfl
      exacts [rw'.good, hK.good, rwt.good])
  have e : ∀ i < comp.rows, ∀ j < comp.cols, prodEntry (fun M => M.asNumpy.get) [w, K, wt] i j =
      ∑ p ∈ Finset.range W.cols, ∑ q ∈ Finset.range W.cols, W.get i p * k p q * W.get j q := by
    intro i hi j hj
    rw [hr] at hi; rw [hcl] at hj
    rw [prodEntry_cons, w4]
    refine Finset.sum_congr rfl fun p hp => ?_
    have hp := Finset.mem_range.1 hp
    rw [prodEntry_cons, hc, Finset.mul_sum]
    refine Finset.sum_congr rfl fun q hq => ?_
    have hq := Finset.mem_range.1 hq
    show _ * (_ * wt.asNumpy.get q j) = _
    rw [rw'.entry hi (by omega), hK.entry (by omega) (by omega), rwt.entry (by omega) hj, hWT,
      Arr2.T_get hq (by omega)]
    ring
  have hcR' := hcR.congr e
  refine ⟨by simp [hr, w3], by simp [hcl, t4, hWTc], ⟨hcR'.rpos, hcR'.cpos, hcR'.matvec, hcR'.matmat, ?_⟩⟩
  simp only [hK.asNumpy, of_T, hr, hcl, w3, t4, hWTc]
  have e1 : W.dot (Arr2.of K.cols K.rows fun i j => k j i) =
      Arr2.of W.rows W.cols fun i p => ∑ q ∈ Finset.range W.cols, W.get i q * k p q := by
    unfold Arr2.dot
    simp only [Arr2.of_cols, hsq]
    refine Arr2.of_congr fun i hi p hp => Finset.sum_congr rfl fun q hq => ?_
    rw [Arr2.of_get (by rw [hc]; exact Finset.mem_range.1 hq) hp]
  rw [e1, of_T]
  unfold Arr2.dot
  simp only [Arr2.of_cols]
  refine Arr2.of_congr fun i hi j hj => Finset.sum_congr rfl fun p hp => ?_
  rw [Arr2.of_get (Finset.mem_range.1 hp) hj, Finset.mul_sum]
  exact Finset.sum_congr rfl fun q _ => by ring

end Verif
