import Verif.Props.Optimization

/-! What the optimizer prints (C52). -/

namespace Verif

theorem fdiv_eq_floor (a b : ℤ) : a.fdiv b = ⌊(a : ℚ) / b⌋ := by
  have key : ∀ a b : ℤ, 0 ≤ b → a.fdiv b = ⌊(a : ℚ) / b⌋ := by
    intro a b hb
    obtain ⟨n, rfl⟩ := Int.eq_ofNat_of_zero_le hb
    rw [Int.fdiv_eq_ediv_of_nonneg _ hb]
    exact (Rat.floor_intCast_div_natCast a n).symm
  rcases le_total 0 b with hb | hb
  · exact key a b hb
  · rw [← Int.neg_fdiv_neg, key _ _ (by omega)]
    push_cast
    rw [neg_div_neg_eq]

theorem printEvery_eq (o : AdaOpts) : max (o.maxIt.fdiv o.verbosity) 1 = printEvery o := by
  unfold printEvery
  rw [fdiv_eq_floor]

open Classical in
theorem printUpdate_eq (o : AdaOpts) (n : ℕ) (x : ℝ) :
    printUpdate o n x = if o.verbosity ≠ 0 ∧ printEvery o ∣ (n : ℤ) then [.update n x] else [] := by
  unfold printUpdate
  simp only
  by_cases hv : o.verbosity = 0
  · rw [if_neg (by simp [hv]), if_neg (by simp [hv])]
  · rw [if_pos hv, printEvery_eq o]
    by_cases hd : printEvery o ∣ (n : ℤ)
    · rw [if_pos ⟨hv, Int.emod_eq_zero_of_dvd hd⟩, if_pos ⟨hv, hd⟩]
    · rw [if_neg (fun h => hd (Int.dvd_of_emod_eq_zero h.2)), if_neg (fun h => hd h.2)]

theorem printEpilog_eq (o : AdaOpts) (n : ℕ) (x : ℝ) : printEpilog o n x = if o.verbosity = 0 then [] else [.epilog n x] := by
  unfold printEpilog
  split_ifs <;> first | rfl | contradiction

theorem printProlog_eq (o : AdaOpts) : printProlog o = if o.verbosity = 0 then [] else [.prolog] := by
  unfold printProlog
  split_ifs <;> first | rfl | contradiction

/-- one iteration of the loop, with what it prints -/
theorem adaLoop_events {σ : Type*} {it : AdaIter σ} {x : List ℝ} {S : ℕ → σ} {G : ℕ → List ℝ} (h : Unstopped it x S G) (o : AdaOpts) (cb : ℕ → Except PyErr Unit) (n : ℕ)
    (hcb : cb n = .ok ()) :
    (adaLoop it o cb (S n) n (o.permittedDrops - dropsIn o.minGradRatio G n) (runMax G n)).1 = printUpdate o (n + 1) (largest (G n)) ++ [.callback] ++
      open Classical in if MayStop o G (n + 1) then printEpilog o (n + 1) (largest (G n)) else
        (adaLoop it o cb (S (n + 1)) (n + 1) (o.permittedDrops - dropsIn o.minGradRatio G (n + 1)) (runMax G (n + 1))).1 := by
  conv_lhs => rw [adaLoop]
  rw [h.step]
  simp only
  rw [gradNorm_eq (h.nonempty n)]
  simp only
  rw [hcb]
  simp only
  have e1 : max (largest (G n)) (runMax G n) = runMax G (n + 1) := rfl
  rw [e1]
  have e2 : (if largest (G n) < o.minGradRatio * runMax G (n + 1) then o.permittedDrops - (dropsIn o.minGradRatio G n : ℤ) - 1
      else o.permittedDrops - (dropsIn o.minGradRatio G n : ℤ)) = o.permittedDrops - (dropsIn o.minGradRatio G (n + 1) : ℤ) := by
    rw [dropsIn_succ]
    by_cases hd : Drop o.minGradRatio G n
    · rw [if_pos ((drop_iff ..).1 hd), if_pos hd]; push_cast; ring
    · rw [if_neg (fun q => hd ((drop_iff ..).2 q)), if_neg hd]; simp
  rw [e2]
  have e3 : (o.maxIt ≤ ((n + 1 : ℕ) : ℤ) ∨ o.permittedDrops - (dropsIn o.minGradRatio G (n + 1) : ℤ) ≤ 0) ↔ MayStop o G (n + 1) := by
    unfold MayStop
    rw [sub_nonpos]
    exact ⟨fun q => ⟨by omega, q⟩, fun q => q.2⟩
  by_cases hs : MayStop o G (n + 1)
  · rw [dif_pos (e3.2 hs), if_pos hs]
  · rw [dif_neg (fun q => hs (e3.1 q)), if_neg hs]

theorem adaLoop_transcript {σ : Type*} {it : AdaIter σ} {x : List ℝ} {S : ℕ → σ} {G : ℕ → List ℝ} (h : Unstopped it x S G) (o : AdaOpts) (cb : ℕ → Except PyErr Unit)
    {N : ℕ} (hN : MayStop o G N) (hmin : ∀ m < N, ¬ MayStop o G m) (hcb : ∀ k, cb k = .ok ()) : ∀ (d n : ℕ), n + d + 1 = N →
      (adaLoop it o cb (S n) n (o.permittedDrops - dropsIn o.minGradRatio G n) (runMax G n)).1 =
        ((List.range' n (d + 1)).flatMap fun k => printUpdate o (k + 1) (largest (G k)) ++ [.callback]) ++ printEpilog o N (largest (G (N - 1)))
  | 0, n, hn => by
    have hn' : n + 1 = N := hn
    rw [adaLoop_events h o cb n (hcb n), if_pos (hn' ▸ hN), ← hn']
    simp
  | d + 1, n, hn => by
    rw [adaLoop_events h o cb n (hcb n), if_neg (hmin _ (by omega)), adaLoop_transcript h o cb hN hmin hcb d (n + 1) (by omega), List.range'_succ (s := n), List.flatMap_cons, List.append_assoc (_ ++ _)]

/-- C52: what is seen of a run from outside: the calls of the callback and the lines printed, as `verbosity` asks for. -/
theorem C52_transcript {σ : Type*} (it : AdaIter σ) (o : AdaOpts) (cb : ℕ → Except PyErr Unit) (x : List ℝ) (S : ℕ → σ) (G : ℕ → List ℝ) (h : Unstopped it x S G)
    (hcb : ∀ k, cb k = .ok ()) : ∃ N, IsLeast {n | MayStop o G n} N ∧ (adaOpt it o cb x).1 = transcript o G N := by
  obtain ⟨N, h1, h2, h3, h4⟩ := exists_stop o G
  refine ⟨N, ⟨h1, fun m hm => not_lt.1 fun hlt => h2 m hlt hm⟩, ?_⟩
  have q := adaLoop_transcript h o cb h1 h2 hcb (N - 1) 0 (by omega)
  have e : o.permittedDrops - ((dropsIn o.minGradRatio G 0 : ℕ) : ℤ) = o.permittedDrops := by
    unfold dropsIn
    simp
  rw [e, h.start, show runMax G 0 = 0 from rfl, show N - 1 + 1 = N by omega, ← List.range_eq_range'] at q
  unfold adaOpt transcript
  simp only
  rw [q, printProlog_eq, printEpilog_eq, List.append_assoc]
  simp only [printUpdate_eq]

theorem progress_append (l l' : List AdaEvent) : progressLines (l ++ l') = progressLines l + progressLines l' := by
  unfold progressLines
  rw [List.filter_append, List.length_append]

/-- the number of progress lines of a run: one for each multiple of the interval -/
theorem progress_transcript (o : AdaOpts) (G : ℕ → List ℝ) (N : ℕ) (hv : o.verbosity ≠ 0) : (progressLines (transcript o G N) : ℤ) = N / printEvery o := by
  classical
  have h0 : 0 < printEvery o := lt_of_lt_of_le one_pos (le_max_right _ _)
  unfold transcript
  rw [if_neg hv, if_neg hv, progress_append, progress_append]
  have h1 : progressLines [AdaEvent.prolog] = 0 := rfl
  have h2 : progressLines [AdaEvent.epilog N (largest (G (N - 1)))] = 0 := rfl
  rw [h1, h2, zero_add, add_zero]
  clear h1 h2
  induction N with
  | zero => simp [progressLines]
  | succ n ih =>
    have e : (printEvery o).toNat = printEvery o := Int.toNat_of_nonneg h0.le
    rw [List.range_succ, List.flatMap_append, progress_append]
    rw [Nat.cast_add, ih, Nat.cast_succ (n := n)]
    have e2 : ((n : ℤ) + 1) / printEvery o = n / printEvery o + if printEvery o ∣ ((n + 1 : ℕ) : ℤ) then 1 else 0 := by
      rw [← e]
      have := Nat.succ_div (a := n) (b := (printEvery o).toNat)
      by_cases hd : (printEvery o).toNat ∣ n + 1
      · rw [if_pos hd] at this
        rw [if_pos (Int.natCast_dvd_natCast.2 hd)]
        exact_mod_cast this
      · rw [if_neg hd] at this
        rw [if_neg (fun h => hd (Int.natCast_dvd_natCast.1 h))]
        exact_mod_cast this
    rw [e2]
    congr 1
    rw [List.flatMap_cons, List.flatMap_nil, List.append_nil]
    by_cases hd : printEvery o ∣ ((n + 1 : ℕ) : ℤ)
    · rw [if_pos ⟨hv, hd⟩, if_pos hd]
      rfl
    · rw [if_neg (fun h => hd h.2), if_neg hd]
      rfl

/-- C52: With a positive `verbosity` fewer than twice as many progress lines are printed, and at least as many when all of `max_it ≥ verbosity` iterations take place. -/
theorem C52_lines {σ : Type*} (it : AdaIter σ) (o : AdaOpts) (cb : ℕ → Except PyErr Unit) (x : List ℝ) (S : ℕ → σ) (G : ℕ → List ℝ) (h : Unstopped it x S G)
    (hcb : ∀ k, cb k = .ok ()) (hv : 0 < o.verbosity) :
    (progressLines (adaOpt it o cb x).1 : ℤ) < 2 * o.verbosity ∧
      (o.verbosity ≤ o.maxIt → (callbacks (adaOpt it o cb x).1 : ℤ) = o.maxIt → o.verbosity ≤ progressLines (adaOpt it o cb x).1) := by
  obtain ⟨N, hN, ht⟩ := C52_transcript it o cb x S G h hcb
  obtain ⟨N', hN', hle, -, hcall⟩ := C52_stops it o cb x S G h hcb
  have e : N' = N := hN'.unique hN
  subst e
  have h0 : 0 < printEvery o := lt_of_lt_of_le one_pos (le_max_right _ _)
  have hf : ⌊(o.maxIt : ℚ) / o.verbosity⌋ = o.maxIt / o.verbosity := by
    rw [← fdiv_eq_floor, Int.fdiv_eq_ediv_of_nonneg _ hv.le]
  have h1 : o.maxIt / o.verbosity ≤ printEvery o := by
    unfold printEvery
    rw [hf]
    exact le_max_left _ _
  have h2 : o.maxIt < (printEvery o + 1) * o.verbosity := by
    have := Int.lt_ediv_add_one_mul_self o.maxIt hv
    nlinarith
  constructor
  · rw [ht, progress_transcript o G N' hv.ne']
    refine Int.ediv_lt_of_lt_mul h0 ?_
    rcases le_total o.maxIt 1 with hm | hm
    · have : (N' : ℤ) ≤ 1 := by omega
      nlinarith
    · have : (N' : ℤ) ≤ o.maxIt := by omega
      have : (1 : ℤ) ≤ printEvery o := h0
      nlinarith
  · intro hvm hc
    rw [hcall] at hc
    rw [ht, progress_transcript o G N' hv.ne', hc]
    refine Int.le_ediv_of_mul_le h0 ?_
    have h3 : 1 ≤ o.maxIt / o.verbosity := Int.le_ediv_of_mul_le hv (by omega)
    have h4 : printEvery o = o.maxIt / o.verbosity := by
      unfold printEvery
      rw [hf]
      exact max_eq_left h3
    rw [h4, mul_comm]
    exact Int.ediv_mul_le _ hv.ne'

/-- Gradients `1, 1/2, 1/4, …` with at most six iterations and `verbosity = 2`: a line is printed after the third and the sixth. -/
example : (adaOpt halving { maxIt := 6, verbosity := 2, permittedDrops := 100 } (fun _ => .ok ()) [1]).1 =
    [.prolog, .callback, .callback, .update 3 (1 / 2 ^ 2), .callback, .callback, .callback, .update 6 (1 / 2 ^ 5), .callback, .epilog 6 (1 / 2 ^ 5)] := by
  obtain ⟨N, hN, ht⟩ := C52_transcript halving { maxIt := 6, verbosity := 2, permittedDrops := 100 } (fun _ => .ok ()) [1] _ _ (halving_unstopped 1) fun _ => rfl
  have hd : ∀ n, dropsIn (0.1 : ℝ) (fun k => [(1 : ℝ) / 2 ^ k, 1 / 2 ^ k / 3]) n ≤ n := fun n => by
    classical
    unfold dropsIn
    exact (Finset.card_filter_le _ _).trans (by simp)
  have hs : N = 6 := by
    refine hN.unique ⟨⟨by norm_num, .inl (by norm_num)⟩, fun n hn => ?_⟩
    obtain ⟨-, h | h⟩ := hn
    · have h' : (6 : ℤ) ≤ n := h
      exact_mod_cast h'
    · have := hd n
      have h' : (100 : ℤ) ≤ (dropsIn (0.1 : ℝ) (fun k => [(1 : ℝ) / 2 ^ k, 1 / 2 ^ k / 3]) n : ℤ) := h
      omega
  subst hs
  rw [ht]
  unfold transcript
  have hp : printEvery { maxIt := 6, verbosity := 2, permittedDrops := 100 } = 3 := by
    rw [← printEvery_eq]
    rfl
  simp only [hp, halving_largest]
  simp [List.range_succ]

end Verif
