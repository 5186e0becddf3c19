import Verif.Spec.BTTB
import Verif.Proofs.NDArr
import Verif.Proofs.Matrix3
import Verif.Proofs.Toeplitz

namespace Verif

theorem getD_getElem {α : Type*} {l : List α} {i : ℕ} (d : α) (h : i < l.length) : l.getD i d = l[i] := by
  simp [h]

theorem absDiff_comm (i j : ℕ) : absDiff i j = absDiff j i := by unfold absDiff; split <;> split <;> omega

theorem absDiff_lt {i j n : ℕ} (hi : i < n) (hj : j < n) : absDiff i j < n := by unfold absDiff; split <;> omega

theorem inBox_iff : ∀ {s t : List ℕ}, inBox s t ↔ t.length = s.length ∧ ∀ p < s.length, t.getD p 0 < s.getD p 0
  | [], [] => by simp [inBox]
  | [], _ :: _ => by simp [inBox]
  | _ :: _, [] => by simp [inBox]
  | n :: s, i :: t => by
    simp only [inBox, List.length_cons]
    rw [inBox_iff (s := s) (t := t)]
    constructor
    · rintro ⟨h1, h2, h3⟩
      refine ⟨by omega, fun p hp => ?_⟩
      cases p with
      | zero => simpa using h1
      | succ p => simpa using h3 p (by omega)
    · rintro ⟨h1, h2⟩
      refine ⟨by simpa using h2 0 (by omega), by omega, fun p hp => ?_⟩
      simpa using h2 (p + 1) (by omega)

theorem pow2_facts {n : ℕ} (hn : 0 < n) : 2 * n ≤ 2 ^ (n * 2 - 1).size ∧ 2 ^ (n * 2 - 1).size % 2 = 0 := by
  have h := Nat.lt_size_self (n * 2 - 1)
  refine ⟨by omega, ?_⟩
  have : 0 < (n * 2 - 1).size := Nat.size_pos.2 (by omega)
  obtain ⟨k, hk⟩ : ∃ k, (n * 2 - 1).size = k + 1 := ⟨_, (Nat.succ_pred_eq_of_pos this).symm⟩
  rw [hk, pow_succ]
  omega

/-- the padded shape -/
def padShape (sizes : List ℕ) : List ℕ := pow2 (sizes.map (· * 2))

theorem padShape_length (sizes : List ℕ) : (padShape sizes).length = sizes.length := by simp [padShape, pow2]

theorem padShape_getD {sizes : List ℕ} {p : ℕ} (hp : p < sizes.length) :
    (padShape sizes).getD p 0 = 2 ^ (sizes.getD p 0 * 2 - 1).size := by
  simp [padShape, pow2, hp]

/-- index reflection performed by one axis pass -/
def mir (n m q : ℕ) : ℕ := if m - n + 1 ≤ q ∧ q < m then n - 1 - (q - (m - n + 1)) else q

theorem getD_set_eq {α : Type*} {l : List α} {p : ℕ} {v d : α} (h : p < l.length) : (l.set p v).getD p d = v := by
  simp [h]
theorem getD_set_ne {α : Type*} {l : List α} {p q : ℕ} {v d : α} (h : p ≠ q) : (l.set p v).getD q d = l.getD q d := by
  simp [List.getD_eq_getElem?_getD, List.getElem?_set_ne h]

theorem mirror_get {E : NDArr ℝ} {p n m : ℕ} {idx : List ℕ} (h : inBox E.shape idx) (hp : p < idx.length) :
    (mirrorAxis E p n m).get idx = E.get (idx.set p (mir n m (idx.getD p 0))) := by
  unfold mirrorAxis
  rw [NDArr.of_get h]
  simp only [mir]
  split
  · rfl
  · congr 1
    refine list_ext_getD 0 (by simp) fun q hq => ?_
    by_cases e : p = q
    · subst e; rw [getD_set_eq hp]
    · rw [getD_set_ne e]

theorem mir_lt {n m q : ℕ} (hn : 0 < n) (hm : 2 * n ≤ m) (hq : q < m) : mir n m q < m := by
  unfold mir; split <;> omega

theorem mirrors_get (E : NDArr ℝ) (ns : List ℕ) (hlen : E.shape.length = ns.length)
    (hpos : ∀ p < ns.length, 0 < ns.getD p 0 ∧ 2 * ns.getD p 0 ≤ E.shape.getD p 0) :
    ∀ (k a : ℕ), a + k = ns.length →
    ((List.range' a k).foldr (fun p E' => mirrorAxis E' p (ns.getD p 0) (E.shape.getD p 0)) E).shape = E.shape ∧
    ∀ idx, inBox E.shape idx →
    ((List.range' a k).foldr (fun p E' => mirrorAxis E' p (ns.getD p 0) (E.shape.getD p 0)) E).get idx =
      E.get (vmk ns.length fun p => if a ≤ p then mir (ns.getD p 0) (E.shape.getD p 0) (idx.getD p 0) else idx.getD p 0)
  | 0, a, ha => by
    refine ⟨rfl, fun idx hidx => ?_⟩
    simp only [List.range'_zero, List.foldr_nil]
    congr 1
    refine eq_vmk 0 (by rw [inBox_length hidx, hlen]) fun p hp => ?_
    rw [if_neg (by omega)]
  | k + 1, a, ha => by
    obtain ⟨ih1, ih2⟩ := mirrors_get E ns hlen hpos k (a + 1) (by omega)
    simp only [List.range'_succ, List.foldr_cons]
    refine ⟨ih1, fun idx hidx => ?_⟩
    have hl := inBox_length hidx
    have hb := (inBox_iff.1 hidx).2
    have hset : inBox E.shape (idx.set a (mir (ns.getD a 0) (E.shape.getD a 0) (idx.getD a 0))) := by
      rw [inBox_iff]
      refine ⟨by simp [hl], fun p hp => ?_⟩
      by_cases e : a = p
      · subst e
        rw [getD_set_eq (by omega)]
        exact mir_lt (hpos a (by omega)).1 (hpos a (by omega)).2 (hb a hp)
      · rw [getD_set_ne e]; exact hb p hp
    rw [mirror_get (by rw [ih1]; exact hidx) (by omega), ih2 _ hset]
    congr 1
    refine vmk_congr fun p hp => ?_
    by_cases e : a = p
    · subst e
      rw [if_neg (by omega), if_pos le_rfl, getD_set_eq (by omega)]
    · rw [getD_set_ne e]
      by_cases h : a ≤ p
      · rw [if_pos (by omega), if_pos h]
      · rw [if_neg (by omega), if_neg h]

theorem cyclicExtendN_get {top : List ℝ} {sizes : List ℕ} (hpos : ∀ n ∈ sizes, 0 < n) :
    (cyclicExtendN top sizes).shape = padShape sizes ∧
    ∀ idx, inBox (padShape sizes) idx → (cyclicExtendN top sizes).get idx =
      let idx' := vmk sizes.length fun p => mir (sizes.getD p 0) ((padShape sizes).getD p 0) (idx.getD p 0)
      if inBox sizes idx' then top.getD (ravel sizes idx') 0 else 0 := by
  have hpos' : ∀ p < sizes.length, 0 < sizes.getD p 0 ∧ 2 * sizes.getD p 0 ≤ (padShape sizes).getD p 0 := by
    intro p hp
    have h1 : 0 < sizes.getD p 0 := by
      rw [getD_getElem _ hp]; exact hpos _ (List.getElem_mem hp)
    exact ⟨h1, by rw [padShape_getD hp]; exact (pow2_facts h1).1⟩
  set E : NDArr ℝ := NDArr.of (padShape sizes) fun idx => if inBox sizes idx then (⟨sizes, top⟩ : NDArr ℝ).get idx else 0 with hE
  have hunf : cyclicExtendN top sizes =
      (List.range' 0 sizes.length).foldr (fun p E' => mirrorAxis E' p (sizes.getD p 0) (E.shape.getD p 0)) E := by
    unfold cyclicExtendN
    simp only [List.foldl_reverse, List.range_eq_range']
    rfl
  obtain ⟨h1, h2⟩ := mirrors_get E sizes (padShape_length sizes) hpos' sizes.length 0 (by omega)
  refine ⟨by rw [hunf]; exact h1, fun idx hidx => ?_⟩
  rw [hunf, h2 idx hidx]
  simp only [Nat.zero_le, if_true]
  rw [hE, NDArr.of_get]
  · rfl
  · rw [inBox_iff]
    refine ⟨by simp [padShape_length], fun p hp => ?_⟩
    rw [padShape_length] at hp
    rw [vmk_getD_lt hp]
    exact mir_lt (hpos' p hp).1 (hpos' p hp).2 ((inBox_iff.1 hidx).2 p (by rw [padShape_length]; exact hp))

theorem msum_eq_zero : ∀ {s : List ℕ} {f : List ℕ → ℂ}, (∀ t, inBox s t → f t = 0) → msum s f = 0
  | [], _, h => h [] trivial
  | n :: s, f, h => by
    simp only [msum]
    exact Finset.sum_eq_zero fun i hi => msum_eq_zero fun t ht => h (i :: t) ⟨Finset.mem_range.1 hi, ht⟩

theorem msum_restrict : ∀ {s S : List ℕ}, List.Forall₂ (· ≤ ·) s S → ∀ {f : List ℕ → ℂ},
    (∀ t, inBox S t → ¬ inBox s t → f t = 0) → msum S f = msum s f
  | [], [], _, _, _ => rfl
  | n :: s, m :: S, h, f, hf => by
    obtain ⟨h1, h2⟩ := List.forall₂_cons.1 h
    simp only [msum]
    have hsub : Finset.range n ⊆ Finset.range m := Finset.range_mono h1
    rw [← Finset.sum_subset hsub]
    · refine Finset.sum_congr rfl fun i hi => ?_
      have hi := Finset.mem_range.1 hi
      exact msum_restrict h2 fun t ht hnt => hf (i :: t) ⟨by omega, ht⟩ fun hb => hnt hb.2
    · intro i hi hni
      have hi := Finset.mem_range.1 hi
      exact msum_eq_zero fun t ht => hf (i :: t) ⟨hi, ht⟩ fun hb => hni (Finset.mem_range.2 hb.1)
  | [], _ :: _, h, _, _ => by cases h
  | _ :: _, [], h, _, _ => by cases h

theorem cdiff_length : ∀ (s j l : List ℕ), j.length = s.length → l.length = s.length → (cdiff s j l).length = s.length
  | [], [], [], _, _ => rfl
  | m :: s, a :: j, b :: l, h1, h2 => by
    simp only [cdiff, List.length_cons]
    rw [cdiff_length s j l (by simpa using h1) (by simpa using h2)]
  | _ :: _, [], _, h1, _ => by simp at h1
  | _ :: _, _ :: _, [], _, h2 => by simp at h2
  | [], _ :: _, _, h1, _ => by simp at h1
  | [], [], _ :: _, _, h2 => by simp at h2

theorem cdiff_getD : ∀ (s j l : List ℕ), j.length = s.length → l.length = s.length → ∀ p < s.length,
    (cdiff s j l).getD p 0 = (j.getD p 0 + s.getD p 0 - l.getD p 0) % s.getD p 0
  | [], _, _, _, _ => by simp
  | m :: s, a :: j, b :: l, h1, h2 => by
    intro p hp
    cases p with
    | zero => simp [cdiff]
    | succ p =>
      simp only [cdiff, List.getD_cons_succ]
      exact cdiff_getD s j l (by simpa using h1) (by simpa using h2) p (by simpa using hp)
  | _ :: _, [], _, h1, _ => by simp at h1
  | _ :: _, _ :: _, [], _, h2 => by simp at h2

theorem unravel_length : ∀ (s : List ℕ) (k : ℕ), (unravel s k).length = s.length
  | [], _ => rfl
  | _ :: s, k => by simp [unravel, unravel_length s]

theorem ravel_absDiff : ∀ (s : List ℕ) (i j : ℕ),
    ravel s (List.zipWith absDiff (unravel s i) (unravel s j)) = ravelDiff s i j
  | [], _, _ => rfl
  | n :: s, i, j => by
    simp only [unravel, List.zipWith_cons_cons, ravel, ravelDiff]
    rw [ravel_absDiff s]

theorem ravelDiff_lt {s : List ℕ} {i j : ℕ} (hi : i < s.prod) (hj : j < s.prod) : ravelDiff s i j < s.prod := by
  rw [← ravel_absDiff]
  refine ravel_lt (inBox_iff.2 ⟨by simp [unravel_length], fun p hp => ?_⟩)
  have h1 := (inBox_iff.1 (unravel_inBox hi)).2 p hp
  have h2 := (inBox_iff.1 (unravel_inBox hj)).2 p hp
  have : (List.zipWith absDiff (unravel s i) (unravel s j)).getD p 0 =
      absDiff ((unravel s i).getD p 0) ((unravel s j).getD p 0) := by
    simp [unravel_length, hp]
  rw [this]; unfold absDiff; split <;> omega

theorem ravelDiff_comm : ∀ (s : List ℕ) (i j : ℕ), ravelDiff s i j = ravelDiff s j i
  | [], _, _ => rfl
  | n :: s, i, j => by simp only [ravelDiff]; rw [absDiff_comm, ravelDiff_comm s]

/-- the n-dimensional FFT product is multiplication by the multi-level Toeplitz matrix -/
theorem bttbMatvec_eq {top x : List ℝ} {sizes : List ℕ} (hpos : ∀ n ∈ sizes, 0 < n) (hne : sizes ≠ [])
    (hx : x.length = sizes.prod) :
    bttbMatvec top sizes x = vmk sizes.prod fun i => ∑ j ∈ Finset.range sizes.prod,
      top.getD (ravelDiff sizes i j) 0 * x.getD j 0 := by
  obtain ⟨hsh, hget⟩ := cyclicExtendN_get (top := top) hpos
  have hpos' : ∀ p < sizes.length, 0 < sizes.getD p 0 ∧ 2 * sizes.getD p 0 ≤ (padShape sizes).getD p 0 ∧
      (padShape sizes).getD p 0 % 2 = 0 := by
    intro p hp
    have h1 : 0 < sizes.getD p 0 := by
      rw [getD_getElem _ hp]; exact hpos _ (List.getElem_mem hp)
    rw [padShape_getD hp]
    exact ⟨h1, pow2_facts h1⟩
  unfold bttbMatvec
  simp only
  rw [NDArr.of_data]
  refine vmk_congr fun i hi => ?_
  rw [hsh]
  show (irfftn ⟨(rfftn ⟨sizes, x⟩ (padShape sizes)).shape, List.zipWith (· * ·) (rfftn ⟨sizes, x⟩ (padShape sizes)).data
    (rfftn (cyclicExtendN top sizes) (padShape sizes)).data⟩).get (unravel sizes i) = _
  have hbi := unravel_inBox hi
  have hbi' := (inBox_iff.1 hbi).2
  -- split the padded shape
  have hPne : padShape sizes ≠ [] := by
    intro h; have := padShape_length sizes; rw [h] at this
    exact hne (List.length_eq_zero_iff.1 this.symm)
  obtain ⟨lead, n, hln⟩ : ∃ lead n, padShape sizes = lead ++ [n] :=
    ⟨_, _, (List.dropLast_concat_getLast hPne).symm⟩
  have hall : ∀ m ∈ padShape sizes, 0 < m ∧ m % 2 = 0 := by
    intro m hm
    obtain ⟨p, hp, rfl⟩ := List.getElem_of_mem hm
    have := hpos' p (by rw [← padShape_length sizes]; exact hp)
    rw [getD_getElem _ hp] at this
    exact ⟨by omega, this.2.2⟩
  have hiP : inBox (padShape sizes) (unravel sizes i) := by
    rw [inBox_iff]
    refine ⟨by rw [unravel_length, padShape_length], fun p hp => ?_⟩
    rw [padShape_length] at hp
    have := hpos' p hp
    have := hbi' p hp
    omega
  have key := irfftn_mul ⟨sizes, x⟩ (cyclicExtendN top sizes) lead n
    (fun m hm => (hall m (by rw [hln]; simp [hm])).1) (hall n (by rw [hln]; simp)).1 (hall n (by rw [hln]; simp)).2
    (j := unravel sizes i) (by rw [← hln]; exact hiP)
  rw [← hln] at key
  rw [key]
  have hc : ((∑ q ∈ Finset.range (padShape sizes).prod, (⟨sizes, x⟩ : NDArr ℝ).padGet (unravel (padShape sizes) q) *
      (cyclicExtendN top sizes).padGet (cdiff (padShape sizes) (unravel sizes i) (unravel (padShape sizes) q)) : ℝ) : ℂ) =
      ((∑ j ∈ Finset.range sizes.prod, top.getD (ravelDiff sizes i j) 0 * x.getD j 0 : ℝ) : ℂ) := by
    rw [← ofReal_msum_re (padShape sizes) fun l => (⟨sizes, x⟩ : NDArr ℝ).padGet l *
      (cyclicExtendN top sizes).padGet (cdiff (padShape sizes) (unravel sizes i) l)]
    rw [msum_restrict (s := sizes)]
    · rw [ofReal_msum_re sizes fun l => (⟨sizes, x⟩ : NDArr ℝ).padGet l *
        (cyclicExtendN top sizes).padGet (cdiff (padShape sizes) (unravel sizes i) l)]
      congr 1
      refine Finset.sum_congr rfl fun j hj => ?_
      have hj := Finset.mem_range.1 hj
      have hbj := unravel_inBox hj
      have hbj' := (inBox_iff.1 hbj).2
      rw [mul_comm]
      congr 1
      · have hcd : inBox (padShape sizes) (cdiff (padShape sizes) (unravel sizes i) (unravel sizes j)) := by
          rw [inBox_iff]
          refine ⟨cdiff_length _ _ _ (by rw [unravel_length, padShape_length]) (by rw [unravel_length, padShape_length]), fun p hp => ?_⟩
          rw [cdiff_getD _ _ _ (by rw [unravel_length, padShape_length]) (by rw [unravel_length, padShape_length]) p hp]
          rw [padShape_length] at hp
          exact Nat.mod_lt _ (by have := hpos' p hp; omega)
        unfold NDArr.padGet
        rw [hsh, if_pos hcd, hget _ hcd]
        have he : (vmk sizes.length fun p => mir (sizes.getD p 0) ((padShape sizes).getD p 0)
            ((cdiff (padShape sizes) (unravel sizes i) (unravel sizes j)).getD p 0)) =
            List.zipWith absDiff (unravel sizes i) (unravel sizes j) := by
          symm
          refine eq_vmk 0 (by simp [unravel_length]) fun p hp => ?_
          rw [cdiff_getD _ _ _ (by rw [unravel_length, padShape_length]) (by rw [unravel_length, padShape_length]) p
            (by rw [padShape_length]; exact hp)]
          have h1 := hbi' p hp
          have h2 := hbj' p hp
          obtain ⟨h3, h4, -⟩ := hpos' p hp
          have : (List.zipWith absDiff (unravel sizes i) (unravel sizes j)).getD p 0 =
              absDiff ((unravel sizes i).getD p 0) ((unravel sizes j).getD p 0) := by
            simp [unravel_length, hp]
          rw [this]
          generalize (unravel sizes i).getD p 0 = a at *
          generalize (unravel sizes j).getD p 0 = b at *
          generalize sizes.getD p 0 = n' at *
          generalize (padShape sizes).getD p 0 = m' at *
          unfold absDiff mir
          by_cases hab : b ≤ a
          · have e : (a + m' - b) % m' = a - b := by
              rw [show a + m' - b = (a - b) + m' by omega, Nat.add_mod_right, Nat.mod_eq_of_lt (by omega)]
            rw [e, if_pos hab, if_neg (by omega)]
          · have e : (a + m' - b) % m' = a + m' - b := Nat.mod_eq_of_lt (by omega)
            rw [e, if_neg hab, if_pos (by omega)]
            omega
        simp only [he]
        rw [if_pos, ravel_absDiff]
        rw [inBox_iff]
        refine ⟨by simp [unravel_length], fun p hp => ?_⟩
        have : (List.zipWith absDiff (unravel sizes i) (unravel sizes j)).getD p 0 =
            absDiff ((unravel sizes i).getD p 0) ((unravel sizes j).getD p 0) := by
          simp [unravel_length, hp]
        rw [this]
        have h1 := hbi' p hp
        have h2 := hbj' p hp
        unfold absDiff; split <;> omega
      · unfold NDArr.padGet
        rw [if_pos hbj]
        unfold NDArr.get
        simp only
        rw [ravel_unravel hj]
    · rw [List.forall₂_iff_get]
      refine ⟨(padShape_length sizes).symm, fun p h1 h2 => ?_⟩
      have := (hpos' p h1).2.1
      rw [getD_getElem _ h1, getD_getElem _ h2] at this
      simp only [List.get_eq_getElem]
      omega
    · intro t _ hnt
      unfold NDArr.padGet
      rw [if_neg hnt]; simp
  exact_mod_cast hc

/-! ### as_numpy -/

theorem setBlock_grid {Z : Arr2 ℝ} {n x y a b : ℕ} {g : ℕ → ℕ → ℝ} (ha : a < Z.rows) (hb : b < Z.cols) (hn : 0 < n) :
    (Z.setBlock (x * n) (y * n) (Arr2.of n n g)).get a b =
      if a / n = x ∧ b / n = y then g (a % n) (b % n) else Z.get a b := by
  rw [setBlock_get ha hb]
  have iff1 : ∀ a x : ℕ, (x * n ≤ a ∧ a < x * n + n) ↔ a / n = x := by
    intro a x
    rw [Nat.div_eq_iff hn]
    constructor <;> intro h <;> constructor <;> omega
  have iff2 : (x * n ≤ a ∧ a < x * n + (Arr2.of n n g).rows ∧ y * n ≤ b ∧ b < y * n + (Arr2.of n n g).cols) ↔
      (a / n = x ∧ b / n = y) := by
    rw [← iff1, ← iff1, Arr2.of_rows, Arr2.of_cols]; tauto
  by_cases h : a / n = x ∧ b / n = y
  · have h1 := (iff1 a x).2 h.1
    have h2 := (iff1 b y).2 h.2
    rw [if_pos (iff2.2 h), if_pos h, Arr2.of_get (by omega) (by omega)]
    have e1 : a % n = a - x * n := by
      have := Nat.div_add_mod' a n; rw [h.1] at this; omega
    have e2 : b % n = b - y * n := by
      have := Nat.div_add_mod' b n; rw [h.2] at this; omega
    rw [e1, e2]
  · rw [if_neg h, if_neg (fun h' => h (iff2.1 h'))]

theorem tr_inner {n N i : ℕ} (hn : 0 < n) (g : ℕ → ℕ → ℝ)
    (hsym : ∀ p < n, ∀ q < n, g p q = g q p) : ∀ (k : ℕ), ∀ (z : Arr2 ℝ), z.WF → z.rows = N * n → z.cols = N * n →
    let out := (List.range k).foldl (fun z j =>
        (z.setBlock ((i + j) * n) (j * n) (Arr2.of n n g)).setBlock (j * n) ((i + j) * n) (Arr2.of n n g).T) z
    out.WF ∧ out.rows = N * n ∧ out.cols = N * n ∧ ∀ a < N * n, ∀ b < N * n, out.get a b =
      if absDiff (a / n) (b / n) = i ∧ min (a / n) (b / n) < k then g (a % n) (b % n) else z.get a b
  | 0, z, hz, hr, hc => by
    refine ⟨hz, hr, hc, fun a _ b _ => ?_⟩
    rw [if_neg (fun h => Nat.not_lt_zero _ h.2)]; rfl
  | k + 1, z, hz, hr, hc => by
    obtain ⟨h1, h2, h3, h4⟩ := tr_inner hn g hsym k z hz hr hc
    rw [List.range_succ, List.foldl_append, List.foldl_cons, List.foldl_nil]
    refine ⟨Arr2.of_wf _ _ _, h2, h3, fun a ha b hb => ?_⟩
    rw [show ∀ z' : Arr2 ℝ, (z'.setBlock (k * n) ((i + k) * n) (Arr2.of n n g).T) =
      z'.setBlock (k * n) ((i + k) * n) (Arr2.of n n fun p q => g q p) from fun z' => by rw [of_T], setBlock_grid (by rw [setBlock_rows, h2]; exact ha) (by rw [setBlock_cols, h3]; exact hb) hn,
      setBlock_grid (by rw [h2]; exact ha) (by rw [h3]; exact hb) hn, h4 a ha b hb]
    have hma := Nat.mod_lt a hn
    have hmb := Nat.mod_lt b hn
    by_cases c1 : a / n = k ∧ b / n = i + k
    · rw [if_pos c1, hsym _ hmb _ hma, if_pos]
      unfold absDiff; rw [c1.1, c1.2]; split <;> omega
    · rw [if_neg c1]
      by_cases c2 : a / n = i + k ∧ b / n = k
      · rw [if_pos c2, if_pos]
        unfold absDiff; rw [c2.1, c2.2]; split <;> omega
      · rw [if_neg c2]
        by_cases c3 : absDiff (a / n) (b / n) = i ∧ min (a / n) (b / n) < k
        · rw [if_pos c3, if_pos ⟨c3.1, by omega⟩]
        · rw [if_neg c3, if_neg]
          rintro ⟨h5, h6⟩
          generalize a / n = u at *
          generalize b / n = v at *
          have h7 : ¬ min u v < k := fun h => c3 ⟨h5, h⟩
          unfold absDiff at h5
          rcases le_total u v with h | h
          · rw [min_eq_left h] at h6 h7
            split at h5 <;> omega
          · rw [min_eq_right h] at h6 h7
            split at h5 <;> omega

theorem tr_outer {n N : ℕ} (hn : 0 < n) (f : ℕ → ℕ → ℕ → ℝ)
    (hsym : ∀ t < N, ∀ p < n, ∀ q < n, f t p q = f t q p) : ∀ (k : ℕ), k ≤ N →
    let out := (List.range k).foldl (fun z i =>
      (List.range (N - i)).foldl (fun z j =>
        (z.setBlock ((i + j) * n) (j * n) (Arr2.of n n (f i))).setBlock (j * n) ((i + j) * n) (Arr2.of n n (f i)).T) z)
        (Arr2.zeros (N * n) (N * n))
    out.WF ∧ out.rows = N * n ∧ out.cols = N * n ∧ ∀ a < N * n, ∀ b < N * n, out.get a b =
      if absDiff (a / n) (b / n) < k then f (absDiff (a / n) (b / n)) (a % n) (b % n) else 0
  | 0, _ => by
    simp only [List.range_zero, List.foldl_nil]
    refine ⟨Arr2.of_wf _ _ _, rfl, rfl, fun a ha b hb => ?_⟩
    rw [if_neg (by omega)]
    exact Arr2.of_get ha hb
  | k + 1, hk => by
    obtain ⟨h1, h2, h3, h4⟩ := tr_outer hn f hsym k (by omega)
    rw [List.range_succ, List.foldl_append, List.foldl_cons, List.foldl_nil]
    obtain ⟨i1, i2, i3, i4⟩ := tr_inner (N := N) (i := k) hn (f k) (hsym k (by omega)) (N - k) _ h1 h2 h3
    refine ⟨i1, i2, i3, fun a ha b hb => ?_⟩
    rw [i4 a ha b hb, h4 a ha b hb]
    have ha' : a / n < N := Nat.div_lt_of_lt_mul (by rwa [mul_comm] at ha)
    have hb' : b / n < N := Nat.div_lt_of_lt_mul (by rwa [mul_comm] at hb)
    by_cases c : absDiff (a / n) (b / n) = k
    · rw [if_pos ⟨c, by unfold absDiff at c; split at c <;> omega⟩, if_pos (by omega), c]
    · rw [if_neg (by tauto)]
      by_cases c2 : absDiff (a / n) (b / n) < k
      · rw [if_pos c2, if_pos (by omega)]
      · rw [if_neg c2, if_neg (by omega)]

theorem toepReplicate_eq {n N : ℕ} (hn : 0 < n) (f : ℕ → ℕ → ℕ → ℝ)
    (hsym : ∀ t < N, ∀ p < n, ∀ q < n, f t p q = f t q p) :
    toepReplicate (vmk N fun t => Arr2.of n n (f t)) n =
      Arr2.of (N * n) (N * n) fun a b => f (absDiff (a / n) (b / n)) (a % n) (b % n) := by
  unfold toepReplicate
  split
  · rename_i h1
    subst h1
    have e : (vmk N fun t => Arr2.of 1 1 (f t)).flatMap Arr2.data = vmk N fun t => f t 0 0 := by
      unfold vmk
      rw [List.flatMap_map]
      have : ∀ l : List ℕ, (l.flatMap fun t => (Arr2.of 1 1 (f t)).data) = l.map fun t => f t 0 0 := fun l => by
        induction l with
        | nil => rfl
        | cons a l ih => rw [List.flatMap_cons, ih]; rfl
      exact this _
    rw [e]
    unfold laToeplitz
    simp only [vmk_length, Nat.mul_one]
    refine Arr2.of_congr fun a ha b hb => ?_
    simp only [Nat.div_one, Nat.mod_one]
    show (vmk N fun t => f t 0 0).getD (absDiff a b) 0 = _
    rw [vmk_getD_lt (by unfold absDiff; split <;> omega)]
  · simp only [vmk_length]
    obtain ⟨h1, h2, h3, h4⟩ := tr_outer hn f hsym N le_rfl
    have e : ∀ (z0 : Arr2 ℝ), (List.range N).foldl (fun z i => (List.range (N - i)).foldl (fun z j =>
        (z.setBlock ((i + j) * n) (j * n) ((vmk N fun t => Arr2.of n n (f t)).getD i ⟨0, 0, []⟩)).setBlock (j * n) ((i + j) * n)
          ((vmk N fun t => Arr2.of n n (f t)).getD i ⟨0, 0, []⟩).T) z) z0 =
        (List.range N).foldl (fun z i => (List.range (N - i)).foldl (fun z j =>
        (z.setBlock ((i + j) * n) (j * n) (Arr2.of n n (f i))).setBlock (j * n) ((i + j) * n) (Arr2.of n n (f i)).T) z) z0 := by
      intro z0
      refine List.foldl_ext _ _ _ fun z i hi => ?_
      rw [vmk_getD_lt (List.mem_range.1 hi)]
    rw [e]
    refine Arr2.ext' h1 (Arr2.of_wf _ _ _) h2 h3 fun a ha b hb => ?_
    rw [h2] at ha; rw [h3] at hb
    rw [h4 a ha b hb, Arr2.of_get ha hb, if_pos]
    have ha' : a / n < N := Nat.div_lt_of_lt_mul (by rwa [mul_comm] at ha)
    have hb' : b / n < N := Nat.div_lt_of_lt_mul (by rwa [mul_comm] at hb)
    exact absDiff_lt ha' hb'

theorem chunksL_vmk {α : Type*} {K n : ℕ} (hn : 0 < n) (g : ℕ → α) :
    chunksL (vmk (K * n) g) n = vmk K fun t => vmk n fun a => g (t * n + a) := by
  unfold chunksL
  have h1 : nchunks (vmk (K * n) g).length n = K := by
    unfold nchunks
    simp only [vmk_length]
    rw [Nat.add_sub_assoc (by omega), mul_comm, Nat.mul_add_div hn, Nat.div_eq_of_lt (by omega), add_zero]
  rw [h1]
  show vmk K _ = _
  refine vmk_congr fun t ht => ?_
  have : (t + 1) * n ≤ K * n := Nat.mul_le_mul_right _ ht
  rw [Nat.succ_mul] at this
  refine List.ext_getElem ?_ fun a h1 h2 => ?_
  · rw [slice_length (by simp; omega)]; simp
  · simp only [vmk_getElem]
    unfold slice
    simp

theorem bttbAsNumpy_eq {top : List ℝ} {sizes : List ℕ} (hpos : ∀ n ∈ sizes, 0 < n)
    (ht : top.length = sizes.prod) :
    bttbAsNumpy top sizes = Arr2.of sizes.prod sizes.prod fun i j => top.getD (ravelDiff sizes i j) 0 := by
  have key : ∀ (s : List ℕ), (∀ n ∈ s, 0 < n) → ∀ K, top.length = K * s.prod →
      s.foldr (fun n (st : List (Arr2 ℝ) × ℕ) => ((chunksL st.1 n).map fun b => toepReplicate b st.2, st.2 * n))
        (top.map fun t => Arr2.of 1 1 fun _ _ => t, 1) =
      (vmk K fun t => Arr2.of s.prod s.prod fun i j => top.getD (t * s.prod + ravelDiff s i j) 0, s.prod) := by
    intro s
    induction s with
    | nil =>
      intro _ K hK
      simp only [List.prod_nil, Nat.mul_one] at hK
      simp only [List.foldr_nil, List.prod_nil, ravelDiff, Nat.mul_one, Nat.add_zero, Prod.mk.injEq, and_true]
      subst hK
      conv_lhs => rw [← vmk_self top 0]
      simp [vmk]
    | cons n s ih =>
      intro hs K hK
      have hn := hs n (by simp)
      have hsp : 0 < s.prod := List.prod_pos fun x hx => hs x (by simp [hx])
      rw [List.foldr_cons, ih (fun x hx => hs x (by simp [hx])) (K * n) (by rw [hK, List.prod_cons]; ring)]
      simp only [List.prod_cons, Prod.mk.injEq]
      refine ⟨?_, mul_comm _ _⟩
      rw [chunksL_vmk hn]
      unfold vmk
      rw [List.map_map]
      refine List.map_congr_left fun t _ => ?_
      simp only [Function.comp]
      have := toepReplicate_eq (n := s.prod) (N := n) hsp
        (fun a i j => top.getD ((t * n + a) * s.prod + ravelDiff s i j) 0)
        (fun a _ p _ q _ => by rw [ravelDiff_comm])
      unfold vmk at this
      rw [this]
      refine Arr2.of_congr fun i _ j _ => ?_
      congr 1
      simp only [ravelDiff]; ring
  unfold bttbAsNumpy
  simp only [List.foldl_reverse]
  rw [key sizes hpos 1 (by omega)]
  simp [vmk]

theorem bttb_ok {top : NDArr ℝ} {sizes : NDArr ℕ} {M : MatObj} (h : bttbNew top sizes = .ok M) :
    top.shape = [M.rows] ∧ M.cols = M.rows ∧ 0 < M.rows ∧ sizes.data.prod = top.data.length ∧ sizes.data ≠ [] ∧
    M.matvec = bttbMatvec top.data sizes.data ∧ M.matmat = defaultMatmat M.rows M.matvec ∧
    M.asNumpy = bttbAsNumpy top.data sizes.data ∧ sizes.ndim = 1 := by
  simp only [bttbNew, bind_ok] at h
  obtain ⟨n, hn, h⟩ := h
  split at h
  · cases h
  · rename_i hs
    split at h
    · cases h
    · rename_i hd
      simp only [bind_ok] at h
      obtain ⟨k, hk, h⟩ := h
      split at h
      · cases h
      · rename_i hk'
        split at h
        · cases h
        · rename_i hp
          simp only [bind_ok] at h
          obtain ⟨_, h1, h⟩ := h
          split at h
          · cases h
          · rename_i hne
            simp only [pure_ok] at h
            subst h
            refine ⟨by simpa using hs, rfl, (matrixInit_ok.1 h1).1, by simpa using hp, hne, rfl, rfl, rfl, ?_⟩
            simp only [ne_eq, not_not] at hk'
            simp [NDArr.ndim, hk']

theorem bttb_represents {top : NDArr ℝ} {sizes : NDArr ℕ} {M : MatObj} (hw : top.WF)
    (h : bttbNew top sizes = .ok M) :
    M.rows = sizes.data.prod ∧ M.cols = sizes.data.prod ∧
      Represents M (fun i j => top.data.getD (ravelDiff sizes.data i j) 0) := by
  obtain ⟨h1, h2, h3, h4, h5, h6, h7, h8, -⟩ := bttb_ok h
  have hl : top.data.length = M.rows := by simpa [NDArr.WF, h1] using hw
  have hp : ∀ n ∈ sizes.data, 0 < n := by
    intro n hn
    rcases Nat.eq_zero_or_pos n with h0 | h0
    · subst h0
      have := List.prod_eq_zero hn
      omega
    · exact h0
  refine ⟨by omega, by omega, Represents.ofDefault h3 (by omega) (fun x hx => ?_) h7 ?_⟩
  · rw [h6, bttbMatvec_eq hp h5 (by omega), show M.cols = sizes.data.prod by omega, show M.rows = sizes.data.prod by omega]
  · rw [h8, bttbAsNumpy_eq hp (by omega), show M.cols = sizes.data.prod by omega, show M.rows = sizes.data.prod by omega]

end Verif
