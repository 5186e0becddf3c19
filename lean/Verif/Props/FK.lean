import Verif.Proofs.FK
import Verif.Proofs.KernPsd
import Verif.Spec.LinAlg
import Verif.Proofs.EigBound

/-! C29–C31: `FunctionalKernel`. -/

namespace Verif

/-! ### C29 -/

theorem unitDiag_ok (D : ℕ) (d : ℤ) (h : -(D : ℤ) ≤ d ∧ d < D) :
    unitDiag D d = .ok (vmk D fun j => if (j : ℤ) = d ∨ (j : ℤ) = d + D then 1 else 0) := by
  unfold unitDiag
  have hi : 0 ≤ (if d < 0 then d + D else d) ∧ (if d < 0 then d + D else d) < (D : ℤ) := by split_ifs <;> omega
  simp only [hi, and_self, ↓reduceIte, Except.ok.injEq]
  refine vmk_congr fun j hj => ?_
  by_cases hd : d < 0
  · simp only [hd, ↓reduceIte]
    refine if_congr ?_ rfl rfl
    omega
  · simp only [hd, ↓reduceIte]
    refine if_congr ?_ rfl rfl
    omega

theorem unitDiag_err (D : ℕ) (d : ℤ) (h : ¬ (-(D : ℤ) ≤ d ∧ d < D)) : unitDiag D d = .error .indexError := by
  unfold unitDiag
  rw [if_neg]
  by_cases hd : d < 0 <;> simp only [hd, ↓reduceIte] <;> omega

theorem mapExcept_units_ok (D : ℕ) (l : List ℤ) (h : ∀ d ∈ l, -(D : ℤ) ≤ d ∧ d < D) :
    mapExcept (unitDiag D) l = .ok (l.map fun d => vmk D fun j => if (j : ℤ) = d ∨ (j : ℤ) = d + D then 1 else 0) := by
  induction l with
  | nil => rfl
  | cons a l ih =>
    simp only [mapExcept, unitDiag_ok D a (h a (by simp)), ok_bind, ih fun d hd => h d (by simp [hd])]
    rfl

theorem mapExcept_units_err (D : ℕ) (l : List ℤ) (h : ¬ ∀ d ∈ l, -(D : ℤ) ≤ d ∧ d < D) :
    mapExcept (unitDiag D) l = .error .indexError := by
  induction l with
  | nil => simp at h
  | cons a l ih =>
    by_cases ha : -(D : ℤ) ≤ a ∧ a < D
    · simp only [mapExcept, unitDiag_ok D a ha, ok_bind]
      rw [ih]
      · rfl
      · intro h'; exact h (by intro d hd; rcases List.mem_cons.1 hd with rfl | hd; exact ha; exact h' d hd)
    · simp only [mapExcept, unitDiag_err D a ha]
      rfl

/-- the output indices that will be used for the independent kernels -/
def FKArgs.idx (a : FKArgs) : List ℤ := indexOrRange a.indepGpIndex (given a.indepGp).length

theorem indexOrRange_nil {o : Option (List ℤ)} (h : given o = []) (n : ℕ) : indexOrRange o n = vmk n fun i => (i : ℤ) := by
  match o, h with
  | none, _ => rfl
  | some [], _ => rfl

theorem indexOrRange_ne {o : Option (List ℤ)} (h : given o ≠ []) (n : ℕ) : indexOrRange o n = given o := by
  match o, h with
  | none, h => exact absurd rfl h
  | some [], h => exact absurd rfl h
  | some (a :: l), _ => rfl

theorem idx_length (a : FKArgs) : (given a.indepGpIndex = [] ∨ (given a.indepGpIndex).length = (given a.indepGp).length) ↔
    a.idx.length = (given a.indepGp).length := by
  unfold FKArgs.idx
  by_cases h : given a.indepGpIndex = []
  · simp [indexOrRange_nil h, h]
  · simp [indexOrRange_ne h, h]

theorem idx_inRange (a : FKArgs) (D : ℕ) (hD : a.D = some (D : ℤ)) :
    a.InRange ↔ ∀ d ∈ a.idx, -(D : ℤ) ≤ d ∧ d < D := by
  unfold FKArgs.InRange FKArgs.idx
  simp only [hD, Option.some.injEq, forall_eq']
  by_cases h : given a.indepGpIndex = []
  · simp only [h, forall_const, List.not_mem_nil, false_implies, implies_true, and_true, indexOrRange_nil h, vmk,
      List.mem_map, List.mem_range, forall_exists_index, and_imp]
    constructor
    · rintro hl d i hi rfl; omega
    · intro h'
      by_contra hc
      have := h' D D (by omega) rfl
      omega
  · simp [indexOrRange_ne h, h]

theorem falsy_iff {α : Type} (o : Option (List α)) : falsy o = true ↔ given o = [] := by
  cases o with
  | none => simp [falsy, given]
  | some l => simp [falsy, given]

/-- with both LMC lists given, the constructor is a chain of tests -/
theorem fkNew_given (rand : ℕ → ℕ → ℕ → ℝ) (a : FKArgs) (hk : a.lmcKernels ≠ none) (hr : a.lmcRanks ≠ none) :
    (a.Documented → a.InRange → ∃ D : ℕ, a.D = some (D : ℤ) ∧ fkNew rand a = .ok
      { D := D, kernels := given a.lmcKernels ++ given a.slfmKernels ++ given a.indepGp,
        coregVecs := initAq rand D (given a.lmcRanks) (given a.slfmKernels).length (given a.indepGp).length,
        coregDiags := vmk (given a.lmcKernels).length (fun _ => vmk D fun _ => 1) ++
          vmk (given a.slfmKernels).length (fun _ => vmk D fun _ => 0) ++
          a.idx.map fun d => vmk D fun j => if (j : ℤ) = d ∨ (j : ℤ) = d + D then 1 else 0
        noise := vmk D fun _ => 0.1,
        linkedVecs := (given a.lmcRanks).length + (given a.slfmKernels).length,
        linkedDiags := (given a.lmcKernels).length,
        numLmcTotal := (given a.lmcKernels).length, numSlfmTotal := (given a.slfmKernels).length,
        P := none, activeDims := [], numLmc := [], numSlfm := [], numIndep := [] }) ∧
    (a.Documented → ¬ a.InRange → fkNew rand a = .error .indexError) ∧
    (¬ a.Documented → fkNew rand a = .error .valueError) := by
  obtain ⟨lmc, hlmc⟩ := Option.ne_none_iff_exists'.1 hk
  obtain ⟨ranks, hranks⟩ := Option.ne_none_iff_exists'.1 hr
  have eD := @FKArgs.Documented.mk a
  have g1 : given a.lmcKernels = lmc := by simp [given, hlmc]
  have g2 : given a.lmcRanks = ranks := by simp [given, hranks]
  have g3 : a.slfmKernels.getD [] = given a.slfmKernels := rfl
  have g4 : a.indepGp.getD [] = given a.indepGp := rfl
  have hidx := idx_length a
  by_cases hD : ∃ D, a.D = some D ∧ 1 ≤ D
  · obtain ⟨D', hD', hD1⟩ := hD
    obtain ⟨D, rfl⟩ : ∃ D : ℕ, D' = D := ⟨D'.toNat, by omega⟩
    have hin := idx_inRange a D hD'
    have step : fkNew rand a = if given a.lmcKernels = [] ∧ given a.slfmKernels = [] ∧ given a.indepGp = [] then .error .valueError
        else if lmc.length ≠ ranks.length then .error .valueError
        else if ¬ ∀ r ∈ ranks, 0 < r then .error .valueError
        else if (given a.indepGp).length ≠ a.idx.length then .error .valueError
        else initKq D lmc.length (given a.slfmKernels).length a.idx >>= fun diags => .ok
          { D := D, kernels := lmc ++ given a.slfmKernels ++ given a.indepGp,
            coregVecs := initAq rand D ranks (given a.slfmKernels).length (given a.indepGp).length,
            coregDiags := diags, noise := vmk D fun _ => 0.1,
            linkedVecs := ranks.length + (given a.slfmKernels).length, linkedDiags := lmc.length,
            numLmcTotal := lmc.length, numSlfmTotal := (given a.slfmKernels).length,
            P := none, activeDims := [], numLmc := [], numSlfm := [], numIndep := [] } := by
      unfold fkNew
      simp only [hD', falsy_iff, hlmc, hranks, lenOpt, ok_bind, show (D : ℤ) ≠ 0 by omega, ↓reduceIte, Option.getD_some,
        show ¬ (D : ℤ) < 0 by omega, Int.toNat_natCast]
      rfl
    by_cases c1 : given a.lmcKernels = [] ∧ given a.slfmKernels = [] ∧ given a.indepGp = []
    · have nd : ¬ a.Documented := fun d => d.kernel (by simp [c1])
      refine ⟨fun d => absurd d nd, fun d => absurd d nd, fun _ => ?_⟩
      rw [step, if_pos c1]
    rw [if_neg c1] at step
    by_cases c2 : lmc.length = ranks.length
    swap
    · have nd : ¬ a.Documented := fun d => c2 (by have := d.ranks; rw [g1, g2] at this; exact this.symm)
      refine ⟨fun d => absurd d nd, fun d => absurd d nd, fun _ => ?_⟩
      rw [step, if_pos c2]
    rw [if_neg (by simpa using c2)] at step
    by_cases c3 : ∀ r ∈ ranks, 0 < r
    swap
    · have nd : ¬ a.Documented := fun d => c3 (by have := d.positive; rw [g2] at this; exact this)
      refine ⟨fun d => absurd d nd, fun d => absurd d nd, fun _ => ?_⟩
      rw [step, if_pos c3]
    rw [if_neg (by simpa using c3)] at step
    by_cases c4 : (given a.indepGp).length = a.idx.length
    swap
    · have nd : ¬ a.Documented := fun d => c4 (hidx.1 d.indices).symm
      refine ⟨fun d => absurd d nd, fun d => absurd d nd, fun _ => ?_⟩
      rw [step, if_pos c4]
    rw [if_neg (by simpa using c4)] at step
    have dd : a.Documented := ⟨⟨D, hD', hD1⟩, by simpa using c1, by rw [g1, g2, c2], by rw [g2]; exact c3, hidx.2 c4.symm⟩
    refine ⟨fun _ hr' => ⟨D, hD', ?_⟩, fun _ hr' => ?_, fun nd => absurd dd nd⟩
    · rw [step, initKq, mapExcept_units_ok D _ (hin.1 hr'), ok_bind, g1, g2]
      rfl
    · rw [step, initKq, mapExcept_units_err D _ (fun h => hr' (hin.2 h))]
      rfl
  · have nd : ¬ a.Documented := fun d => hD d.outputs
    refine ⟨fun d => absurd d nd, fun d => absurd d nd, fun _ => ?_⟩
    unfold fkNew
    cases h0 : a.D with
    | none => rfl
    | some D =>
      have hD0 : D < 1 := by by_contra hc; exact hD ⟨D, h0, by omega⟩
      simp only [hlmc, hranks, lenOpt, ok_bind]
      by_cases hz : D = 0
      · simp [hz]
      · simp only [hz, ↓reduceIte, show D < 0 by omega]
        split_ifs <;> rfl

/-- C29 (part): with `lmc_kernels` and `lmc_ranks` given (possibly empty), construction succeeds exactly on documented arguments whose
output indices exist. Missing: the two arguments may not be omitted, and an index that is no output gives IndexError
(see `C29_omitted_lmc_type_error`, `C29_index_error`). -/
theorem C29_accepts_partial (rand : ℕ → ℕ → ℕ → ℝ) (a : FKArgs) (hk : a.lmcKernels ≠ none) (hr : a.lmcRanks ≠ none) :
    (∃ fk, fkNew rand a = .ok fk) ↔ a.Documented ∧ a.InRange := by
  obtain ⟨h1, h2, h3⟩ := fkNew_given rand a hk hr
  constructor
  · rintro ⟨fk, h⟩
    by_cases d : a.Documented
    · by_cases r : a.InRange
      · exact ⟨d, r⟩
      · rw [h2 d r] at h; cases h
    · rw [h3 d] at h; cases h
  · rintro ⟨d, r⟩
    obtain ⟨D, -, h⟩ := h1 d r
    exact ⟨_, h⟩

/-- C29: everything else is a ValueError. -/
theorem C29_rejects (rand : ℕ → ℕ → ℕ → ℝ) (a : FKArgs) (hk : a.lmcKernels ≠ none) (hr : a.lmcRanks ≠ none)
    (hd : ¬ a.Documented) : fkNew rand a = .error .valueError := (fkNew_given rand a hk hr).2.2 hd

/-- C29: what the constructed object holds — omitting a kind means having none of it. -/
theorem C29_contents (rand : ℕ → ℕ → ℕ → ℝ) (a : FKArgs) (fk : FK) (hk : a.lmcKernels ≠ none) (hr : a.lmcRanks ≠ none)
    (h : fkNew rand a = .ok fk) :
    fk.kernels = given a.lmcKernels ++ given a.slfmKernels ++ given a.indepGp ∧ a.D = some (fk.D : ℤ) ∧
      fk.Q = (given a.lmcKernels).length + (given a.slfmKernels).length + (given a.indepGp).length ∧ fk.WF ∧ fk.Fresh := by
  obtain ⟨d, r⟩ := (C29_accepts_partial rand a hk hr).1 ⟨fk, h⟩
  obtain ⟨D, hD, h'⟩ := (fkNew_given rand a hk hr).1 d r
  rw [h'] at h
  cases h
  have hl := (idx_length a).1 d.indices
  have hDpos : 0 < D := by obtain ⟨D', h1, h2⟩ := d.outputs; rw [hD] at h1; cases h1; omega
  refine ⟨rfl, hD, by simp [FK.Q, Nat.add_assoc], ?_, ⟨rfl, rfl, rfl, rfl, rfl, by simp⟩⟩
  have hlr := d.ranks
  set L := (given a.lmcKernels).length with hL
  set S := (given a.slfmKernels).length with hS
  set I := (given a.indepGp).length with hI
  have kl : (given a.lmcKernels ++ given a.slfmKernels ++ given a.indepGp).length = L + S + I := by
    rw [List.length_append, List.length_append]
  have vecget : ∀ q < L + S + I, (initAq rand D (given a.lmcRanks) S I).getD q ⟨0, 0, []⟩ =
      if q < L then Arr2.of ((given a.lmcRanks).getD q 0).toNat D (rand q)
      else if q < L + S then Arr2.of 1 D (rand q) else Arr2.zeros 1 D := by
    intro q hq
    unfold initAq
    rw [vmk_getD_lt (by omega), hlr]
  refine ⟨hDpos, by simp only [kl]; simp [initAq, hlr], by simp only [kl]; simp [hl, Nat.add_assoc], by simp, by simp only [kl]; omega, ?_, ?_, ?_, ?_, ?_⟩
  · intro q hq
    simp only [kl] at hq
    simp only
    rw [vecget q hq]
    split_ifs with h1 h2
    · refine ⟨Arr2.of_wf _ _ _, rfl, ?_⟩
      have hm : (given a.lmcRanks).getD q 0 ∈ given a.lmcRanks := getD_mem _ (by omega)
      have := d.positive _ hm
      show 0 < ((given a.lmcRanks).getD q 0).toNat
      omega
    · exact ⟨Arr2.of_wf _ _ _, rfl, one_pos⟩
    · exact ⟨Arr2.of_wf _ _ _, rfl, one_pos⟩
  · intro q hq
    simp only [kl] at hq
    have : (vmk L (fun _ => vmk D fun _ => (1 : ℝ)) ++ vmk S (fun _ => vmk D fun _ => 0) ++
          a.idx.map fun d => vmk D fun j => if (j : ℤ) = d ∨ (j : ℤ) = d + D then (1 : ℝ) else 0).getD q [] ∈
        (vmk L (fun _ => vmk D fun _ => (1 : ℝ)) ++ vmk S (fun _ => vmk D fun _ => 0) ++
          a.idx.map fun d => vmk D fun j => if (j : ℤ) = d ∨ (j : ℤ) = d + D then (1 : ℝ) else 0) :=
      getD_mem _ (by simp [hl, ← hI]; omega)
    simp only [List.mem_append, List.mem_map] at this
    rcases this with (h1 | h1) | ⟨d', -, h1⟩
    · obtain ⟨i, -, h1⟩ := List.mem_map.1 h1
      simp only; rw [← h1]; simp
    · obtain ⟨i, -, h1⟩ := List.mem_map.1 h1
      simp only; rw [← h1]; simp
    · simp only; rw [← h1]; simp
  · intro q h1 h2 i
    simp only at h1 h2 ⊢
    rw [List.getD_append _ _ _ _ (by simp; omega), List.getD_append_right _ _ _ _ (by simpa using h1), vmk_length,
      vmk_getD_lt (by omega), vmk_getD]
    split_ifs <;> rfl
  · intro q h1 h2
    simp only at h1 h2 ⊢
    rw [vecget q (by omega), if_neg (by omega), if_pos h2]
    rfl
  · intro q h1 i j
    simp only at h1 ⊢
    by_cases hq : q < L + S + I
    · rw [vecget q hq, if_neg (by omega), if_neg (by omega)]
      unfold Arr2.zeros Arr2.get Arr2.of
      simp only
      rw [vmk_getD]; split_ifs <;> rfl
    · rw [getD_ge]
      · simp [Arr2.get]
      · simp [initAq, hlr]; omega

/-- C29 is false of the code (1): leaving out `lmc_kernels` or `lmc_ranks` is a TypeError even though other kernels are given. -/
theorem C29_omitted_lmc_type_error (rand : ℕ → ℕ → ℕ → ℝ) (a : FKArgs) (D : ℤ) (hD : a.D = some D) (h1 : 1 ≤ D)
    (hk : given a.lmcKernels ++ given a.slfmKernels ++ given a.indepGp ≠ []) (ho : a.lmcKernels = none ∨ a.lmcRanks = none) :
    fkNew rand a = .error .typeError := by
  unfold fkNew
  have c1 : ¬ (given a.lmcKernels = [] ∧ given a.slfmKernels = [] ∧ given a.indepGp = []) := by
    intro h; exact hk (by simp [h])
  simp only [hD, falsy_iff, show D ≠ 0 by omega, ↓reduceIte, c1]
  rcases ho with h | h
  · simp only [h, lenOpt]; rfl
  · cases hl : a.lmcKernels with
    | none => simp only [lenOpt]; rfl
    | some l => simp only [h, lenOpt, ok_bind]; rfl

/-- C29 is false of the code (2): an output index that does not exist is an IndexError, not a ValueError. -/
theorem C29_index_error (rand : ℕ → ℕ → ℕ → ℝ) (a : FKArgs) (hk : a.lmcKernels ≠ none) (hr : a.lmcRanks ≠ none)
    (hd : a.Documented) (h : ¬ a.InRange) : fkNew rand a = .error .indexError := (fkNew_given rand a hk hr).2.1 hd h

/-- slfm-only arguments satisfy the documentation and still raise TypeError -/
example (rand : ℕ → ℕ → ℕ → ℝ) :
    (⟨some 2, none, none, some [.rbf 1 none], none, none⟩ : FKArgs).Documented ∧
    fkNew rand ⟨some 2, none, none, some [.rbf 1 none], none, none⟩ = .error .typeError :=
  ⟨⟨⟨2, rfl, by norm_num⟩, by simp [given], rfl, by simp [given], .inl rfl⟩,
   C29_omitted_lmc_type_error _ _ 2 rfl (by norm_num) (by simp [given]) (.inl rfl)⟩

/-- one output, two independent kernels, default indices -/
example (rand : ℕ → ℕ → ℕ → ℝ) :
    fkNew rand ⟨some 1, some [], some [], none, some [.rbf 1 none, .rbf 2 none], none⟩ = .error .indexError :=
  C29_index_error _ _ (by simp) (by simp) ⟨⟨1, rfl, le_rfl⟩, by simp [given], rfl, by simp [given], .inl rfl⟩
    (fun h => by have := (h 1 rfl).1 rfl; simp [given] at this)

/-- a mixed model is accepted -/
theorem exampleArgs_ok (rand : ℕ → ℕ → ℕ → ℝ) : ∃ fk, fkNew rand ⟨some 3, some [.rbf 1 none], some [2],
    some [.matern32 1 (some [1, 0])], some [.rbf 2 (some [1])], some [-1]⟩ = .ok fk :=
  (C29_accepts_partial _ _ (by simp) (by simp)).2 ⟨⟨⟨3, rfl, by norm_num⟩, by simp [given], rfl, by simp [given], .inr rfl⟩,
    fun D hD => by cases hD; simp [given]⟩

end Verif
