import Verif.Spec.Optimization
import Mathlib.Order.ConditionallyCompleteLattice.Indexed
import Mathlib.Tactic.Linarith
import Mathlib.Tactic.NormNum
import Mathlib.Tactic.Ring
import Mathlib.Tactic.IntervalCases
import Mathlib.Tactic.Positivity
import Mathlib.Data.Real.Pointwise

/-! C52: AdaDelta stops. -/

namespace Verif

theorem npMax_greatest : ∀ (l : List ℝ) (a : ℝ), (l.foldl max a = a ∨ l.foldl max a ∈ l) ∧ a ≤ l.foldl max a ∧ ∀ x ∈ l, x ≤ l.foldl max a
  | [], a => ⟨.inl rfl, le_rfl, fun x hx => by cases hx⟩
  | b :: l, a => by
    obtain ⟨h1, h2, h3⟩ := npMax_greatest l (max a b)
    refine ⟨?_, (le_max_left _ _).trans h2, fun x hx => ?_⟩
    · rcases h1 with h1 | h1
      · rw [List.foldl_cons, h1]
        rcases max_choice a b with e | e
        · exact .inl e
        · right; rw [e]; exact List.mem_cons_self ..
      · exact .inr (List.mem_cons_of_mem _ h1)
    · rcases List.mem_cons.1 hx with rfl | hx
      · exact (le_max_right _ _).trans h2
      · exact h3 x hx

/-- the norm the code computes is the largest absolute value of an entry -/
theorem gradNorm_eq {g : List ℝ} (hg : g ≠ []) : gradNorm g = .ok (largest g) := by
  obtain ⟨a, l, rfl⟩ := List.exists_cons_of_ne_nil hg
  obtain ⟨h1, h2, h3⟩ := npMax_greatest (l.map fun x => |x|) |a|
  show Except.ok ((l.map fun x => |x|).foldl max |a|) = _
  congr 1
  have hmem : ∃ x ∈ a :: l, |x| = (l.map fun x => |x|).foldl max |a| := by
    rcases h1 with h1 | h1
    · exact ⟨a, List.mem_cons_self .., h1.symm⟩
    · obtain ⟨x, hx, e⟩ := List.mem_map.1 h1
      exact ⟨x, List.mem_cons_of_mem _ hx, e⟩
  have hle : ∀ x ∈ a :: l, |x| ≤ (l.map fun x => |x|).foldl max |a| := by
    intro x hx
    rcases List.mem_cons.1 hx with rfl | hx
    · exact h2
    · exact h3 _ (List.mem_map.2 ⟨x, hx, rfl⟩)
  obtain ⟨x, hx, e⟩ := hmem
  obtain ⟨i, hi, rfl⟩ := List.getElem_of_mem hx
  unfold largest
  have bdd : BddAbove (Set.range fun i : Fin (a :: l).length => |(a :: l)[i]|) := ⟨_, by rintro _ ⟨j, rfl⟩; exact hle _ (List.getElem_mem _)⟩
  apply le_antisymm
  · rw [← e]
    exact le_ciSup bdd ⟨i, hi⟩
  · haveI : Nonempty (Fin (a :: l).length) := ⟨⟨i, hi⟩⟩
    exact ciSup_le fun j => hle _ (List.getElem_mem _)

theorem largest_nonneg (g : List ℝ) : 0 ≤ largest g := Real.iSup_nonneg fun _ => abs_nonneg _

/-- the running maximum of the first `n` gradient norms -/
noncomputable def runMax (G : ℕ → List ℝ) : ℕ → ℝ
  | 0 => 0
  | n + 1 => max (largest (G n)) (runMax G n)

theorem runMax_le (G : ℕ → List ℝ) : ∀ n, ∀ i < n, largest (G i) ≤ runMax G n
  | n + 1, i, hi => by
    rcases Nat.lt_succ_iff_lt_or_eq.1 hi with h | rfl
    · exact (runMax_le G n i h).trans (le_max_right _ _)
    · exact le_max_left _ _

theorem runMax_attained (G : ℕ → List ℝ) : ∀ n, ∃ j ≤ n, runMax G (n + 1) = largest (G j)
  | 0 => ⟨0, le_rfl, max_eq_left (largest_nonneg _)⟩
  | n + 1 => by
    obtain ⟨j, hj, e⟩ := runMax_attained G n
    rcases max_choice (largest (G (n + 1))) (runMax G (n + 1)) with h | h
    · exact ⟨n + 1, le_rfl, h⟩
    · exact ⟨j, by omega, h.trans e⟩

theorem drop_iff (ratio : ℝ) (G : ℕ → List ℝ) (k : ℕ) : Drop ratio G k ↔ largest (G k) < ratio * runMax G (k + 1) := by
  constructor
  · rintro ⟨j, hj, h1, h2⟩
    obtain ⟨l, hl, e⟩ := runMax_attained G k
    have : runMax G (k + 1) = largest (G j) := le_antisymm (e ▸ h1 l hl) (runMax_le G (k + 1) j (by omega))
    rw [this]
    exact h2
  · intro h
    obtain ⟨j, hj, e⟩ := runMax_attained G k
    exact ⟨j, hj, fun i hi => e ▸ runMax_le G (k + 1) i (by omega), e ▸ h⟩

open Classical in
theorem dropsIn_succ (ratio : ℝ) (G : ℕ → List ℝ) (n : ℕ) : dropsIn ratio G (n + 1) = dropsIn ratio G n + if Drop ratio G n then 1 else 0 := by
  unfold dropsIn
  rw [Finset.range_add_one, Finset.filter_insert]
  split_ifs with h
  · rw [Finset.card_insert_of_notMem (by simp)]
  · rw [Nat.add_zero]

theorem callbacks_append (l l' : List AdaEvent) : callbacks (l ++ l') = callbacks l + callbacks l' := by
  unfold callbacks
  rw [List.filter_append, List.length_append]

theorem callbacks_update (o : AdaOpts) (n : ℕ) (x : ℝ) : callbacks (printUpdate o n x) = 0 := by
  unfold printUpdate
  simp only
  split_ifs <;> rfl

theorem callbacks_epilog (o : AdaOpts) (n : ℕ) (x : ℝ) : callbacks (printEpilog o n x) = 0 := by
  unfold printEpilog
  split_ifs <;> rfl

theorem callbacks_prolog (o : AdaOpts) : callbacks (printProlog o) = 0 := by
  unfold printProlog
  split_ifs <;> rfl

/-- one iteration of the loop -/
theorem adaLoop_step {σ : Type*} {it : AdaIter σ} {x : List ℝ} {S : ℕ → σ} {G : ℕ → List ℝ} (h : Unstopped it x S G) (o : AdaOpts) (cb : ℕ → Except PyErr Unit) (n : ℕ) :
    ∃ l l', callbacks l = 1 ∧ callbacks l' = 0 ∧ adaLoop it o cb (S n) n (o.permittedDrops - dropsIn o.minGradRatio G n) (runMax G n) =
      match cb n with
      | .error e => (l, .error e)
      | .ok _ =>
        open Classical in
        if MayStop o G (n + 1) then (l ++ l', .ok (S (n + 1))) else
          (l ++ (adaLoop it o cb (S (n + 1)) (n + 1) (o.permittedDrops - dropsIn o.minGradRatio G (n + 1)) (runMax G (n + 1))).1,
            (adaLoop it o cb (S (n + 1)) (n + 1) (o.permittedDrops - dropsIn o.minGradRatio G (n + 1)) (runMax G (n + 1))).2) := by
  refine ⟨printUpdate o (n + 1) (largest (G n)) ++ [.callback], printEpilog o (n + 1) (largest (G n)), ?_, callbacks_epilog .., ?_⟩
  · rw [callbacks_append, callbacks_update]; rfl
  · conv_lhs => rw [adaLoop]
    rw [h.step]
    simp only
    rw [gradNorm_eq (h.nonempty n)]
    simp only
    cases cb n with
    | error e => rfl
    | ok u =>
      simp only
      have e1 : max (largest (G n)) (runMax G n) = runMax G (n + 1) := rfl
      rw [e1]
      have e2 : (if largest (G n) < o.minGradRatio * runMax G (n + 1) then o.permittedDrops - (dropsIn o.minGradRatio G n : ℤ) - 1
          else o.permittedDrops - (dropsIn o.minGradRatio G n : ℤ)) = o.permittedDrops - (dropsIn o.minGradRatio G (n + 1) : ℤ) := by
        rw [dropsIn_succ]
        by_cases hd : Drop o.minGradRatio G n
        · rw [if_pos ((drop_iff ..).1 hd), if_pos hd]; push_cast; ring
        · rw [if_neg (fun q => hd ((drop_iff ..).2 q)), if_neg hd]; simp
      rw [e2]
      have e3 : (o.maxIt ≤ ((n + 1 : ℕ) : ℤ) ∨ o.permittedDrops - (dropsIn o.minGradRatio G (n + 1) : ℤ) ≤ 0) ↔ MayStop o G (n + 1) := by
        unfold MayStop
        rw [sub_nonpos]
        exact ⟨fun q => ⟨by omega, q⟩, fun q => q.2⟩
      by_cases hs : MayStop o G (n + 1)
      · rw [dif_pos (e3.2 hs), if_pos hs]
      · rw [dif_neg (fun q => hs (e3.1 q)), if_neg hs]

theorem adaLoop_ok {σ : Type*} {it : AdaIter σ} {x : List ℝ} {S : ℕ → σ} {G : ℕ → List ℝ} (h : Unstopped it x S G) (o : AdaOpts) (cb : ℕ → Except PyErr Unit)
    {N : ℕ} (hN : MayStop o G N) (hmin : ∀ m < N, ¬ MayStop o G m) (hcb : ∀ k < N, cb k = .ok ()) : ∀ (d n : ℕ), n + d + 1 = N →
      (adaLoop it o cb (S n) n (o.permittedDrops - dropsIn o.minGradRatio G n) (runMax G n)).2 = .ok (S N) ∧
        callbacks (adaLoop it o cb (S n) n (o.permittedDrops - dropsIn o.minGradRatio G n) (runMax G n)).1 = d + 1
  | 0, n, hn => by
    obtain ⟨l, l', h1, h2, h3⟩ := adaLoop_step h o cb n
    rw [hcb n (by omega)] at h3
    simp only at h3
    have hn' : n + 1 = N := hn
    rw [if_pos (hn' ▸ hN)] at h3
    rw [h3, ← hn']
    exact ⟨rfl, by rw [callbacks_append, h1, h2]⟩
  | d + 1, n, hn => by
    obtain ⟨l, l', h1, h2, h3⟩ := adaLoop_step h o cb n
    rw [hcb n (by omega)] at h3
    simp only at h3
    rw [if_neg (hmin _ (by omega))] at h3
    obtain ⟨q1, q2⟩ := adaLoop_ok h o cb hN hmin hcb d (n + 1) (by omega)
    rw [h3]
    exact ⟨q1, by rw [callbacks_append, h1, q2, Nat.add_comm]⟩

theorem adaLoop_error {σ : Type*} {it : AdaIter σ} {x : List ℝ} {S : ℕ → σ} {G : ℕ → List ℝ} (h : Unstopped it x S G) (o : AdaOpts) (cb : ℕ → Except PyErr Unit)
    {k : ℕ} (hmin : ∀ m ≤ k, ¬ MayStop o G m) (hcb : ∀ j < k, cb j = .ok ()) {e : PyErr} (he : cb k = .error e) : ∀ (d n : ℕ), n + d = k →
      (adaLoop it o cb (S n) n (o.permittedDrops - dropsIn o.minGradRatio G n) (runMax G n)).2 = .error e ∧
        callbacks (adaLoop it o cb (S n) n (o.permittedDrops - dropsIn o.minGradRatio G n) (runMax G n)).1 = d + 1
  | 0, n, hn => by
    obtain ⟨l, l', h1, h2, h3⟩ := adaLoop_step h o cb n
    have hn' : n = k := hn
    subst hn'
    rw [he] at h3
    rw [h3]
    exact ⟨rfl, h1⟩
  | d + 1, n, hn => by
    obtain ⟨l, l', h1, h2, h3⟩ := adaLoop_step h o cb n
    rw [hcb n (by omega)] at h3
    simp only at h3
    rw [if_neg (hmin _ (by omega))] at h3
    obtain ⟨q1, q2⟩ := adaLoop_error h o cb hmin hcb he d (n + 1) (by omega)
    rw [h3]
    exact ⟨q1, by rw [callbacks_append, h1, q2, Nat.add_comm]⟩

theorem exists_stop (o : AdaOpts) (G : ℕ → List ℝ) : ∃ N, MayStop o G N ∧ (∀ m < N, ¬ MayStop o G m) ∧ 1 ≤ N ∧ (N : ℤ) ≤ max 1 o.maxIt := by
  classical
  have hex : ∃ N, MayStop o G N := ⟨(max 1 o.maxIt).toNat, by omega, .inl (by omega)⟩
  refine ⟨Nat.find hex, Nat.find_spec hex, fun m hm => Nat.find_min hex hm, (Nat.find_spec hex).1, ?_⟩
  have : Nat.find hex ≤ (max 1 o.maxIt).toNat := Nat.find_min' hex ⟨by omega, .inl (by omega)⟩
  omega

/-- C52: when the gradient function and the callback do not raise, `opt` returns after the first number of iterations `N ≥ 1` that reaches `max_it` or has
seen `permitted_drops` drops, so after at most `max(1, max_it)`; it calls the callback once per iteration, and `x_opt` is the point reached then. -/
theorem C52_stops {σ : Type*} (it : AdaIter σ) (o : AdaOpts) (cb : ℕ → Except PyErr Unit) (x : List ℝ) (S : ℕ → σ) (G : ℕ → List ℝ) (h : Unstopped it x S G)
    (hcb : ∀ k, cb k = .ok ()) :
    ∃ N, IsLeast {n | MayStop o G n} N ∧ (N : ℤ) ≤ max 1 o.maxIt ∧ (adaOpt it o cb x).2 = .ok (it.wrt (S N)) ∧ callbacks (adaOpt it o cb x).1 = N := by
  obtain ⟨N, h1, h2, h3, h4⟩ := exists_stop o G
  obtain ⟨q1, q2⟩ := adaLoop_ok h o cb h1 h2 (fun k _ => hcb k) (N - 1) 0 (by omega)
  have e : o.permittedDrops - ((dropsIn o.minGradRatio G 0 : ℕ) : ℤ) = o.permittedDrops := by
    unfold dropsIn
    simp
  rw [e, h.start] at q1 q2
  refine ⟨N, ⟨h1, fun m hm => not_lt.1 fun hlt => h2 m hlt hm⟩, h4, ?_, ?_⟩
  · unfold adaOpt
    simp only
    rw [show runMax G 0 = 0 from rfl] at q1
    rw [q1]
    rfl
  · unfold adaOpt
    simp only
    rw [callbacks_append, callbacks_prolog, show (0 : ℝ) = runMax G 0 from rfl, q2]
    omega

/-- C52: if the callback raises in iteration `k + 1`, before the optimizer stops, that exception is what `opt` raises, and no later iteration takes
place. -/
theorem C52_callback_raises {σ : Type*} (it : AdaIter σ) (o : AdaOpts) (cb : ℕ → Except PyErr Unit) (x : List ℝ) (S : ℕ → σ) (G : ℕ → List ℝ) (h : Unstopped it x S G)
    (k : ℕ) (hk : ∀ m ≤ k, ¬ MayStop o G m) (hcb : ∀ j < k, cb j = .ok ()) (e : PyErr) (he : cb k = .error e) :
    (adaOpt it o cb x).2 = .error e ∧ callbacks (adaOpt it o cb x).1 = k + 1 := by
  obtain ⟨q1, q2⟩ := adaLoop_error h o cb hk hcb he k 0 (by omega)
  have e0 : o.permittedDrops - ((dropsIn o.minGradRatio G 0 : ℕ) : ℤ) = o.permittedDrops := by
    unfold dropsIn
    simp
  rw [e0, h.start] at q1 q2
  unfold adaOpt
  simp only
  constructor
  · rw [show runMax G 0 = 0 from rfl] at q1
    rw [q1]
    rfl
  · rw [callbacks_append, callbacks_prolog, show (0 : ℝ) = runMax G 0 from rfl, q2]
    omega

theorem adaLoop_bound {σ : Type*} (it : AdaIter σ) (o : AdaOpts) (cb : ℕ → Except PyErr Unit) : ∀ (fuel : ℕ) (s : σ) (n : ℕ) (d : ℤ) (r : ℝ), (o.maxIt - (n : ℤ)).toNat ≤ fuel →
    (callbacks (adaLoop it o cb s n d r).1 : ℤ) ≤ max 1 (o.maxIt - n)
  | fuel, s, n, d, r, hf => by
    rw [adaLoop]
    cases h1 : it.next s with
    | error e => exact le_max_of_le_left (by norm_num [callbacks])
    | ok sg =>
      obtain ⟨s', g⟩ := sg
      simp only
      cases h2 : gradNorm g with
      | error e => exact le_max_of_le_left (by norm_num [callbacks])
      | ok norm =>
        simp only
        have c1 : callbacks (printUpdate o (n + 1) norm ++ [.callback]) = 1 := by rw [callbacks_append, callbacks_update]; rfl
        cases h3 : cb n with
        | error e => simp only; rw [c1]; exact le_max_left _ _
        | ok u =>
          simp only
          generalize (if norm < o.minGradRatio * max norm r then d - 1 else d) = d'
          by_cases hs : o.maxIt ≤ ((n + 1 : ℕ) : ℤ) ∨ d' ≤ 0
          · rw [dif_pos hs]
            simp only
            rw [callbacks_append, c1, callbacks_epilog]
            exact le_max_left _ _
          · rw [dif_neg hs]
            simp only
            rw [callbacks_append, c1]
            push_cast at hs
            cases fuel with
            | zero => omega
            | succ f =>
              have := adaLoop_bound it o cb f s' (n + 1) d' (max norm r) (by push_cast; omega)
              push_cast at this ⊢
              omega

/-- C52: whatever the gradient function and the callback do, raising included, the callback is called at most `max(1, max_it)` times. -/
theorem C52_bound {σ : Type*} (it : AdaIter σ) (o : AdaOpts) (cb : ℕ → Except PyErr Unit) (x : List ℝ) : (callbacks (adaOpt it o cb x).1 : ℤ) ≤ max 1 o.maxIt := by
  have := adaLoop_bound it o cb _ (it.start x) 0 o.permittedDrops 0 le_rfl
  unfold adaOpt
  simp only
  rw [callbacks_append, callbacks_prolog]
  simpa using this

/-- the gradient halves in every step -/
noncomputable def halving : AdaIter ℝ := ⟨fun x => x.getD 0 0, fun s => .ok (s / 2, [s, s / 3]), fun s => [s]⟩

theorem halving_unstopped (a : ℝ) : Unstopped halving [a] (fun k => a / 2 ^ k) (fun k => [a / 2 ^ k, a / 2 ^ k / 3]) :=
  ⟨by simp [halving], fun k => by simp only [halving]; rw [pow_succ, div_div], fun k => by simp⟩

theorem halving_largest (k : ℕ) : largest [(1 : ℝ) / 2 ^ k, 1 / 2 ^ k / 3] = 1 / 2 ^ k := by
  have h := gradNorm_eq (g := [(1 : ℝ) / 2 ^ k, 1 / 2 ^ k / 3]) (by simp)
  have hp : (0 : ℝ) < 1 / 2 ^ k := by positivity
  have : gradNorm [(1 : ℝ) / 2 ^ k, 1 / 2 ^ k / 3] = .ok (max |(1 : ℝ) / 2 ^ k| |1 / 2 ^ k / 3|) := rfl
  rw [this] at h
  have h' := Except.ok.inj h
  rw [← h', abs_of_pos hp, abs_of_pos (by positivity)]
  exact max_eq_left (by linarith)

/-- With the default options and gradients `1, 1/2, 1/4, …` the fifth is the first drop and the ninth the fifth: it stops after nine iterations. -/
example : (adaOpt halving {} (fun _ => .ok ()) [1]).2 = .ok [1 / 2 ^ 9] ∧ callbacks (adaOpt halving {} (fun _ => .ok ()) [1]).1 = 9 := by
  obtain ⟨N, ⟨h1, h2⟩, h3, h4, h5⟩ := C52_stops halving {} (fun _ => .ok ()) [1] _ _ (halving_unstopped 1) fun _ => rfl
  have key : ∀ k, Drop 0.1 (fun k => [(1 : ℝ) / 2 ^ k, 1 / 2 ^ k / 3]) k ↔ 4 ≤ k := by
    intro k
    rw [drop_iff]
    have : ∀ n, runMax (fun k => [(1 : ℝ) / 2 ^ k, 1 / 2 ^ k / 3]) (n + 1) = 1 := by
      intro n
      induction n with
      | zero => show max (largest _) 0 = 1; rw [halving_largest]; norm_num
      | succ n ih =>
        show max (largest _) _ = 1
        rw [ih, halving_largest]
        refine max_eq_right ?_
        rw [div_le_one (by positivity)]
        exact one_le_pow₀ (by norm_num)
    rw [this, halving_largest, mul_one]
    constructor
    · intro h
      by_contra hk
      interval_cases k <;> norm_num at h
    · intro h
      rw [div_lt_iff₀ (by positivity)]
      have : (2 : ℝ) ^ 4 ≤ 2 ^ k := pow_le_pow_right₀ (by norm_num) h
      linarith
  have count : ∀ n, dropsIn 0.1 (fun k => [(1 : ℝ) / 2 ^ k, 1 / 2 ^ k / 3]) n = n - 4 := by
    intro n
    induction n with
    | zero => rfl
    | succ n ih =>
      rw [dropsIn_succ, ih]
      by_cases h : 4 ≤ n
      · rw [if_pos ((key n).2 h)]; omega
      · rw [if_neg (fun q => h ((key n).1 q))]; omega
  have e : N = 9 := by
    apply le_antisymm
    · refine h2 ⟨by norm_num, .inr ?_⟩
      rw [count]; norm_num
    · rcases h1 with ⟨-, h1 | h1⟩
      · change (100 : ℤ) ≤ N at h1; omega
      · rw [count] at h1
        change (5 : ℤ) ≤ ((N - 4 : ℕ) : ℤ) at h1
        omega
  subst e
  exact ⟨h4, h5⟩

end Verif
