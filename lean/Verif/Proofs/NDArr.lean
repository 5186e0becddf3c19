import Verif.Model.BTTB
import Verif.Proofs.Matrix2
import Verif.Proofs.FFT

namespace Verif

/-- multi-index of a flat (C order) position -/
def unravel : List ℕ → ℕ → List ℕ
  | [], _ => []
  | _ :: s, t => (t / s.prod) :: unravel s (t % s.prod)

theorem indices_eq : ∀ s : List ℕ, indices s = vmk s.prod (unravel s)
  | [] => by simp [indices, vmk, unravel]
  | n :: s => by
    have e : ∀ i, (indices s).map (i :: ·) = vmk s.prod fun t => i :: unravel s t := fun i => by
      rw [indices_eq s]; simp [vmk]
    simp only [indices, e]
    rw [flatMap_vmk]
    rfl

theorem inBox_length : ∀ {s t : List ℕ}, inBox s t → t.length = s.length
  | [], [], _ => rfl
  | _ :: _, _ :: _, h => by simp [inBox_length h.2]
  | [], _ :: _, h => h.elim
  | _ :: _, [], h => h.elim

theorem ravel_lt : ∀ {s t : List ℕ}, inBox s t → ravel s t < s.prod
  | [], [], _ => by simp [ravel]
  | n :: s, i :: t, h => by
    simp only [ravel, List.prod_cons]
    exact idx_lt h.1 (ravel_lt h.2)
  | [], _ :: _, h => h.elim
  | _ :: _, [], h => h.elim

theorem unravel_ravel : ∀ {s t : List ℕ}, inBox s t → unravel s (ravel s t) = t
  | [], [], _ => rfl
  | n :: s, i :: t, h => by
    have := ravel_lt h.2
    simp only [ravel, unravel]
    rw [idx_div this, idx_mod this, unravel_ravel h.2]
  | [], _ :: _, h => h.elim
  | _ :: _, [], h => h.elim

theorem ravel_unravel : ∀ {s : List ℕ} {k : ℕ}, k < s.prod → ravel s (unravel s k) = k
  | [], k, h => by simp at h; simp [ravel, h]
  | n :: s, k, h => by
    obtain ⟨h1, h2, h3⟩ := idx_split (by simpa using h : k < n * s.prod)
    simp only [ravel, unravel]
    rw [ravel_unravel h2, h3]

theorem unravel_inBox : ∀ {s : List ℕ} {k : ℕ}, k < s.prod → inBox s (unravel s k)
  | [], _, _ => trivial
  | n :: s, k, h => by
    obtain ⟨h1, h2, h3⟩ := idx_split (by simpa using h : k < n * s.prod)
    exact ⟨h1, unravel_inBox h2⟩

theorem indices_length (s : List ℕ) : (indices s).length = s.prod := by simp [indices_eq]

theorem mem_indices {s t : List ℕ} : t ∈ indices s ↔ inBox s t := by
  rw [indices_eq]
  simp only [vmk, List.mem_map, List.mem_range]
  constructor
  · rintro ⟨k, hk, rfl⟩; exact unravel_inBox hk
  · intro h; exact ⟨_, ravel_lt h, unravel_ravel h⟩

namespace NDArr
variable {α : Type*}

theorem of_data (s : List ℕ) (f : List ℕ → α) : (of s f).data = vmk s.prod fun k => f (unravel s k) := by
  simp [of, indices_eq, vmk]

theorem of_get [Zero α] {s : List ℕ} {f : List ℕ → α} {t : List ℕ} (h : inBox s t) :
    (of s f).get t = f t := by
  unfold get
  rw [of_data]
  show (vmk _ _).getD (ravel s t) 0 = _
  rw [vmk_getD_lt (ravel_lt h), unravel_ravel h]

@[simp] theorem of_shape (s : List ℕ) (f : List ℕ → α) : (of s f).shape = s := rfl

theorem of_wf (s : List ℕ) (f : List ℕ → α) : (of s f).WF := by
  unfold WF; rw [of_data]; simp

end NDArr

/-! ### multi-dimensional sums and convolution -/

theorem msum_congr : ∀ {s : List ℕ} {f g : List ℕ → ℂ}, (∀ t, inBox s t → f t = g t) → msum s f = msum s g
  | [], _, _, h => h [] trivial
  | n :: s, f, g, h => by
    simp only [msum]
    exact Finset.sum_congr rfl fun i hi => msum_congr fun t ht => h (i :: t) ⟨Finset.mem_range.1 hi, ht⟩

theorem msum_mul_left (c : ℂ) : ∀ (s : List ℕ) (f : List ℕ → ℂ), c * msum s f = msum s fun t => c * f t
  | [], _ => rfl
  | n :: s, f => by
    simp only [msum, Finset.mul_sum]
    exact Finset.sum_congr rfl fun i _ => msum_mul_left c s _

theorem msum_mul_right (c : ℂ) (s : List ℕ) (f : List ℕ → ℂ) : msum s f * c = msum s fun t => f t * c := by
  rw [mul_comm, msum_mul_left]
  exact msum_congr fun t _ => mul_comm _ _

theorem msum_finset {ι : Type*} (S : Finset ι) : ∀ (s : List ℕ) (f : ι → List ℕ → ℂ),
    ∑ i ∈ S, msum s (f i) = msum s fun t => ∑ i ∈ S, f i t
  | [], _ => rfl
  | n :: s, f => by
    simp only [msum]
    rw [Finset.sum_comm]
    exact Finset.sum_congr rfl fun i _ => msum_finset S s _

theorem msum_append (n : ℕ) : ∀ (s : List ℕ) (f : List ℕ → ℂ),
    msum (s ++ [n]) f = msum s fun t => ∑ i ∈ Finset.range n, f (t ++ [i])
  | [], f => by simp [msum]
  | m :: s, f => by
    simp only [List.cons_append, msum]
    exact Finset.sum_congr rfl fun i _ => msum_append n s _

theorem msum_flat : ∀ (s : List ℕ) (f : List ℕ → ℂ), msum s f = ∑ k ∈ Finset.range s.prod, f (unravel s k)
  | [], f => by simp [msum, unravel]
  | n :: s, f => by
    simp only [msum, List.prod_cons]
    rw [sum_range_mul]
    refine Finset.sum_congr rfl fun i _ => ?_
    rw [msum_flat s]
    refine Finset.sum_congr rfl fun j hj => ?_
    have hj := Finset.mem_range.1 hj
    simp only [unravel]
    rw [idx_div hj, idx_mod hj]

/-- multi-dimensional DFT -/
noncomputable def dftN (s : List ℕ) (a : List ℕ → ℂ) (k : List ℕ) : ℂ := msum s fun j => a j * charNneg s j k

/-- componentwise cyclic difference -/
def cdiff : List ℕ → List ℕ → List ℕ → List ℕ
  | m :: s, j :: js, l :: ls => ((j + m - l) % m) :: cdiff s js ls
  | _, _, _ => []

theorem dftN_cons (m : ℕ) (s : List ℕ) (a : List ℕ → ℂ) (k : ℕ) (ks : List ℕ) :
    dftN (m :: s) a (k :: ks) =
      dftN s (fun t => dft m (fun j => a (j :: t)) k) ks := by
  unfold dftN dft
  simp only [msum, charNneg]
  rw [msum_finset]
  refine msum_congr fun t _ => ?_
  rw [Finset.sum_mul]
  exact Finset.sum_congr rfl fun j _ => by ring

/-- multi-dimensional circular convolution theorem -/
theorem circular_convN : ∀ (s : List ℕ), (∀ m ∈ s, 0 < m) → ∀ (a b : List ℕ → ℂ) (j : List ℕ), j.length = s.length →
    (1 / (s.prod : ℂ)) * msum s (fun k => dftN s a k * dftN s b k * charN s j k) =
      msum s fun l => a l * b (cdiff s j l)
  | [], _, a, b, j, hj => by
    simp [msum, dftN, charN, charNneg, cdiff]
  | m :: s, hs, a, b, j :: js, hj => by
    have hm : 0 < m := hs m (by simp)
    have hm' : (m : ℂ) ≠ 0 := by exact_mod_cast hm.ne'
    simp only [msum, charN]
    have e1 : ∀ k ∈ Finset.range m, (msum s fun t => dftN (m :: s) a (k :: t) * dftN (m :: s) b (k :: t) *
        (unitRoot m (j * k : ℤ) * charN s js t)) = (s.prod : ℂ) * msum s (fun l =>
          dft m (fun i => a (i :: l)) k * dft m (fun i => b (i :: cdiff s js l)) k * unitRoot m (j * k : ℤ)) := by
      intro k _
      have ih := circular_convN s (fun x hx => hs x (by simp [hx])) (fun t => dft m (fun j => a (j :: t)) k)
        (fun t => dft m (fun j => b (j :: t)) k) js (by simpa using hj)
      have hsp : (s.prod : ℂ) ≠ 0 := by
        have : 0 < s.prod := List.prod_pos fun x hx => hs x (by simp [hx])
        exact_mod_cast this.ne'
      have ih' : (msum s fun t => dftN s (fun t => dft m (fun j => a (j :: t)) k) t *
          dftN s (fun t => dft m (fun j => b (j :: t)) k) t * charN s js t) =
          (s.prod : ℂ) * msum s fun l => dft m (fun j => a (j :: l)) k * dft m (fun j => b (j :: cdiff s js l)) k := by
        rw [← ih]; field_simp
      rw [← msum_mul_right, ← mul_assoc, ← ih', msum_mul_right]
      refine msum_congr fun t _ => ?_
      rw [dftN_cons, dftN_cons]; ring
    rw [Finset.sum_congr rfl e1, ← Finset.mul_sum, msum_finset]
    have e2 : ∀ l, ∑ k ∈ Finset.range m, dft m (fun i => a (i :: l)) k * dft m (fun i => b (i :: cdiff s js l)) k *
        unitRoot m (j * k : ℤ) = m * ∑ i ∈ Finset.range m, a (i :: l) * b ((j + m - i) % m :: cdiff s js l) := by
      intro l
      rw [← circular_conv hm (fun i => a (i :: l)) (fun i => b (i :: cdiff s js l)) j]
      field_simp
    simp only [e2]
    rw [← msum_mul_left, ← msum_finset]
    simp only [cdiff]
    have hsp : (s.prod : ℂ) ≠ 0 := by
      have : 0 < s.prod := List.prod_pos fun x hx => hs x (by simp [hx])
      exact_mod_cast this.ne'
    rw [List.prod_cons, Nat.cast_mul]
    field_simp
  | _ :: _, _, _, _, [], hj => by simp at hj

/-! ### rfftn / irfftn -/

theorem charNneg_append (n : ℕ) (i k : ℕ) : ∀ (s t u : List ℕ), t.length = s.length → u.length = s.length →
    charNneg (s ++ [n]) (t ++ [i]) (u ++ [k]) = charNneg s t u * unitRoot n (-(i * k : ℤ))
  | [], [], [], _, _ => by simp [charNneg]
  | m :: s, a :: t, b :: u, h1, h2 => by
    simp only [List.cons_append, charNneg]
    rw [charNneg_append n i k s t u (by simpa using h1) (by simpa using h2)]
    ring
  | _ :: _, [], _, h1, _ => by simp at h1
  | _ :: _, _ :: _, [], _, h2 => by simp at h2
  | [], _ :: _, _, h1, _ => by simp at h1
  | [], [], _ :: _, _, h2 => by simp at h2

theorem inBox_append (n : ℕ) : ∀ (s t : List ℕ) (i : ℕ), t.length = s.length →
    (inBox (s ++ [n]) (t ++ [i]) ↔ inBox s t ∧ i < n)
  | [], [], i, _ => by simp [inBox]
  | m :: s, a :: t, i, h => by
    simp only [List.cons_append, inBox]
    rw [inBox_append n s t i (by simpa using h), and_assoc]
  | [], _ :: _, _, h => by simp at h
  | _ :: _, [], _, h => by simp at h

/-- DFT along the last axis -/
noncomputable def lastDft (n : ℕ) (a : List ℕ → ℝ) (k : ℕ) (t : List ℕ) : ℂ :=
  dft n (fun i => (a (t ++ [i]) : ℂ)) k

theorem rfftn_get (a : NDArr ℝ) (lead : List ℕ) (n : ℕ) {k' : List ℕ} {k : ℕ} (hk' : inBox lead k')
    (hk : k ≤ n / 2) : (rfftn a (lead ++ [n])).get (k' ++ [k]) =
      dftN lead (lastDft n a.padGet k) k' := by
  have hl := inBox_length hk'
  unfold rfftn
  rw [NDArr.of_get]
  · rw [msum_append]
    unfold dftN lastDft dft
    refine msum_congr fun t ht => ?_
    rw [Finset.sum_mul]
    refine Finset.sum_congr rfl fun i _ => ?_
    rw [charNneg_append n i k lead t k' (inBox_length ht) hl]
    ring
  · simp only [List.dropLast_concat, List.getLastD_concat]
    rw [inBox_append _ _ _ _ hl]
    exact ⟨hk', by omega⟩

theorem conj_msum : ∀ (s : List ℕ) (f : List ℕ → ℂ), (starRingEnd ℂ) (msum s f) = msum s fun t => (starRingEnd ℂ) (f t)
  | [], _ => rfl
  | n :: s, f => by
    simp only [msum, map_sum]
    exact Finset.sum_congr rfl fun i _ => conj_msum s _

theorem ofReal_msum_re (s : List ℕ) (f : List ℕ → ℝ) :
    (msum s fun t => (f t : ℂ)) = ((∑ k ∈ Finset.range s.prod, f (unravel s k) : ℝ) : ℂ) := by
  rw [msum_flat]; push_cast; rfl

theorem cdiff_append (n i j : ℕ) : ∀ (s t u : List ℕ), t.length = s.length → u.length = s.length →
    cdiff (s ++ [n]) (t ++ [j]) (u ++ [i]) = cdiff s t u ++ [(j + n - i) % n]
  | [], [], [], _, _ => by simp [cdiff]
  | m :: s, a :: t, b :: u, h1, h2 => by
    simp only [List.cons_append, cdiff]
    rw [cdiff_append n i j s t u (by simpa using h1) (by simpa using h2)]
  | _ :: _, [], _, h1, _ => by simp at h1
  | _ :: _, _ :: _, [], _, h2 => by simp at h2
  | [], _ :: _, _, h1, _ => by simp at h1
  | [], [], _ :: _, _, h2 => by simp at h2

/-- multiplying two real half spectra and inverting is multi-dimensional circular convolution -/
theorem irfftn_mul (a b : NDArr ℝ) (lead : List ℕ) (n : ℕ) (hlead : ∀ m ∈ lead, 0 < m) (hn : 0 < n)
    (he : n % 2 = 0) {j : List ℕ} (hj : inBox (lead ++ [n]) j) :
    (irfftn ⟨(rfftn a (lead ++ [n])).shape, List.zipWith (· * ·) (rfftn a (lead ++ [n])).data
      (rfftn b (lead ++ [n])).data⟩).get j =
      ∑ q ∈ Finset.range (lead ++ [n]).prod, a.padGet (unravel (lead ++ [n]) q) *
        b.padGet (cdiff (lead ++ [n]) j (unravel (lead ++ [n]) q)) := by
  set X : NDArr ℂ := ⟨(rfftn a (lead ++ [n])).shape, List.zipWith (· * ·) (rfftn a (lead ++ [n])).data
      (rfftn b (lead ++ [n])).data⟩ with hX
  have hshape : X.shape = lead ++ [n / 2 + 1] := by simp [hX, rfftn]
  have hn2 : 2 * (n / 2 + 1 - 1) = n := by omega
  have hXget : ∀ k', inBox lead k' → ∀ k ≤ n / 2, X.get (k' ++ [k]) =
      dftN lead (lastDft n a.padGet k) k' * dftN lead (lastDft n b.padGet k) k' := by
    intro k' hk' k hk
    rw [← rfftn_get a lead n hk' hk, ← rfftn_get b lead n hk' hk]
    have hbx : inBox (lead ++ [n / 2 + 1]) (k' ++ [k]) := (inBox_append _ _ _ _ (inBox_length hk')).2 ⟨hk', by omega⟩
    have hr := ravel_lt hbx
    have e1 : (rfftn a (lead ++ [n])).shape = lead ++ [n / 2 + 1] := by simp [rfftn]
    have e2 : (rfftn b (lead ++ [n])).shape = lead ++ [n / 2 + 1] := by simp [rfftn]
    have l1 : (rfftn a (lead ++ [n])).data.length = (lead ++ [n / 2 + 1]).prod := by
      rw [← e1]; exact NDArr.of_wf _ _
    have l2 : (rfftn b (lead ++ [n])).data.length = (lead ++ [n / 2 + 1]).prod := by
      rw [← e2]; exact NDArr.of_wf _ _
    unfold NDArr.get
    rw [hshape, e2]
    simp only [hX]
    have h1 := l1 ▸ hr
    have h2 := l2 ▸ hr
    simp [h1, h2]
  -- split j
  obtain ⟨js, jl, rfl⟩ : ∃ js jl, j = js ++ [jl] := by
    have hne : j ≠ [] := by
      intro h
      have := inBox_length hj
      simp [h] at this
    exact ⟨j.dropLast, j.getLast hne, (List.dropLast_concat_getLast hne).symm⟩
  have hjl : js.length = lead.length := by
    have := inBox_length hj
    simpa using this
  unfold irfftn
  simp only [hshape, List.dropLast_concat, List.getLastD_concat, hn2]
  rw [NDArr.of_get hj]
  simp only [List.dropLast_concat, List.getLastD_concat]
  -- the leading axes
  have hG : ∀ k ≤ n / 2, (1 / (lead.prod : ℂ)) * msum lead (fun k' => X.get (k' ++ [k]) * charN lead js k') =
      msum lead fun l => lastDft n a.padGet k l * lastDft n b.padGet k (cdiff lead js l) := by
    intro k hk
    rw [← circular_convN lead hlead _ _ js hjl]
    congr 1
    exact msum_congr fun t ht => by rw [hXget t ht k hk]
  have hfull : ∀ k ∈ Finset.range n, (if k ≤ n / 2 then (1 / (lead.prod : ℂ)) * msum lead (fun k' => X.get (k' ++ [k]) * charN lead js k')
      else (starRingEnd ℂ) ((1 / (lead.prod : ℂ)) * msum lead (fun k' => X.get (k' ++ [n - k]) * charN lead js k'))) *
      unitRoot n (jl * k : ℤ) =
      msum lead fun l => lastDft n a.padGet k l * lastDft n b.padGet k (cdiff lead js l) * unitRoot n (jl * k : ℤ) := by
    intro k hk
    have hk := Finset.mem_range.1 hk
    rw [← msum_mul_right]
    congr 1
    split
    · rename_i h; exact hG k h
    · rw [hG (n - k) (by omega), conj_msum]
      refine msum_congr fun t _ => ?_
      rw [map_mul]
      unfold lastDft
      rw [dft_conj hn (fun i => a.padGet (t ++ [i])) hk.le, dft_conj hn (fun i => b.padGet (cdiff lead js t ++ [i])) hk.le]
  rw [Finset.sum_congr rfl hfull, msum_finset, msum_mul_left]
  have hlast : (msum lead fun t => (1 / (n : ℂ)) * ∑ k ∈ Finset.range n, lastDft n a.padGet k t *
      lastDft n b.padGet k (cdiff lead js t) * unitRoot n (jl * k : ℤ)) =
      msum (lead ++ [n]) fun l => ((a.padGet l * b.padGet (cdiff (lead ++ [n]) (js ++ [jl]) l) : ℝ) : ℂ) := by
    rw [msum_append]
    refine msum_congr fun t ht => ?_
    unfold lastDft
    rw [circular_conv hn]
    refine Finset.sum_congr rfl fun i _ => ?_
    rw [cdiff_append n i jl lead js t hjl (inBox_length ht)]
    push_cast; rfl
  rw [hlast, ofReal_msum_re, Complex.ofReal_re]

end Verif
