import Verif.Model.Bench
import Verif.Spec.Bench
import Verif.Props.Predict

/-!
C78: the error metrics of the benchmarks. C79: the command line of `bench.py`.
-/

namespace Verif
open Finset

theorem mem_vmk_iff {α : Type} {n : ℕ} {f : ℕ → α} {x : α} : x ∈ vmk n f ↔ ∃ i < n, f i = x := by simp [vmk]

theorem filterList_ok {α : Type} (d : α) (ls : List α) (ixs : List ℕ) (h : ∀ i ∈ ixs, i < ls.length) : filterList ls ixs = .ok (ixs.map fun i => ls.getD i d) := by
  refine mapExcept_ok fun i hi => ?_
  simp [h i hi]

theorem filter_range_sum (n : ℕ) (q : ℕ → Bool) (f : ℕ → ℝ) : (((List.range n).filter q).map f).sum = ∑ i ∈ (range n).filter (fun i => q i = true), f i := by
  induction n with
  | zero => simp
  | succ n ih => rw [List.range_succ, List.filter_append, List.map_append, List.sum_append, ih, Finset.range_add_one, Finset.filter_insert]
                 by_cases h : q n = true <;> simp [h, add_comm]

theorem filter_range_card (n : ℕ) (q : ℕ → Bool) : ((List.range n).filter q).length = ((range n).filter (fun i => q i = true)).card := by
  induction n with
  | zero => simp
  | succ n ih => rw [List.range_succ, List.filter_append, List.length_append, ih, Finset.range_add_one, Finset.filter_insert]
                 by_cases h : q n = true <;> simp [h]

theorem npMeanFloats_some (l : List ℝ) : npMeanFloats (l.map some) = npMeanFloat l := by
  have : ∀ l : List ℝ, (l.map some).mapM id = some l := by
    intro l
    induction l with
    | nil => rfl
    | cons a l ih => simp [List.mapM_cons, ih]
  unfold npMeanFloats
  rw [this]; rfl

theorem npMeanFloat_filter (n : ℕ) (q : ℕ → Bool) (f : ℕ → ℝ) (h : ((range n).filter fun i => q i = true).Nonempty) :
    npMeanFloat (((List.range n).filter q).map f) = some (meanOver ((range n).filter fun i => q i = true) f) := by
  unfold npMeanFloat meanOver
  rw [filter_range_sum, List.length_map, filter_range_card, if_neg]
  intro e
  rw [List.map_eq_nil_iff] at e
  have := filter_range_card n q
  rw [e] at this
  rw [← Finset.card_pos] at h
  simp only [List.length_nil] at this
  omega

theorem npMeanFloat_mean {l : List ℝ} (h : l ≠ []) : npMeanFloat l = some (meanOver (range l.length) fun i => l.getD i 0) := by
  unfold npMeanFloat meanOver
  rw [if_neg h, list_sum_getD, Finset.card_range]

theorem zipWith_getD (f : ℝ → ℝ → ℝ) {x y : List ℝ} (h : x.length = y.length) {i : ℕ} (hi : i < x.length) :
    (List.zipWith f x y).getD i 0 = f (x.getD i 0) (y.getD i 0) := by
  simp [List.getD_eq_getElem?_getD, hi, h ▸ hi]

theorem filterNonempty_ok (a b c : List (List ℝ)) (hb : a.length ≤ b.length) (hc : a.length ≤ c.length) :
    filterNonemptyCols a b c = .ok
      (((List.range a.length).filter fun i => decide (0 < (a.getD i []).length)).map (fun i => a.getD i []),
       ((List.range a.length).filter fun i => decide (0 < (a.getD i []).length)).map (fun i => b.getD i []),
       ((List.range a.length).filter fun i => decide (0 < (a.getD i []).length)).map fun i => c.getD i []) := by
  have hlt : ∀ i ∈ (List.range a.length).filter fun i => decide (0 < (a.getD i []).length), i < a.length := fun i hi => List.mem_range.1 (List.mem_filter.1 hi).1
  unfold filterNonemptyCols
  simp only []
  rw [filterList_ok [] a _ hlt, filterList_ok [] b _ fun i hi => (hlt i hi).trans_le hb, filterList_ok [] c _ fun i hi => (hlt i hi).trans_le hc]
  rfl

theorem smseTerm_ok {test pred train : List ℝ} (ht : 0 < test.length) (hp : pred.length = test.length) (htr : train ≠ [])
    (hne : ∃ i < test.length, test.getD i 0 ≠ meanOf train) : smseTerm test pred train = .ok (some (smseOf test pred train)) := by
  have hz : List.zipWith (fun a b => (a - b) ^ 2) test pred ≠ [] := by
    intro e
    have := congrArg List.length e
    simp [hp] at this
    simp [this] at ht
  have hm : test.map (fun t => (meanOf train - t) ^ 2) ≠ [] := by
    intro e
    simp at e
    simp [e] at ht
  have h0 : npMeanFloat train = some (meanOf train) := by
    rw [npMeanFloat_mean htr]; unfold meanOver meanOf; rw [Finset.card_range]
  have hpos : meanSq (fun i => test.getD i 0) (fun _ => meanOf train) test.length ≠ 0 := by
    obtain ⟨i, hi, hne⟩ := hne
    have h1 : 0 < ∑ i ∈ range test.length, (test.getD i 0 - meanOf train) ^ 2 :=
      Finset.sum_pos' (fun _ _ => sq_nonneg _) ⟨i, Finset.mem_range.2 hi, by have := sub_ne_zero.2 hne; positivity⟩
    unfold meanSq meanOver
    rw [Finset.card_range]
    have : (0 : ℝ) < test.length := by exact_mod_cast ht
    positivity
  unfold smseTerm broadcast2
  rw [if_pos hp.symm]
  simp only [ok_bind, h0, Option.bind_some]
  rw [npMeanFloat_mean hz, npMeanFloat_mean hm]
  have e1 : (meanOver (range (List.zipWith (fun a b => (a - b) ^ 2) test pred).length) fun i => (List.zipWith (fun a b => (a - b) ^ 2) test pred).getD i 0) =
      meanSq (fun i => test.getD i 0) (fun i => pred.getD i 0) test.length := by
    unfold meanSq meanOver
    have hl : (List.zipWith (fun a b : ℝ => (a - b) ^ 2) test pred).length = test.length := by simp [hp]
    rw [hl]
    congr 1
    refine Finset.sum_congr rfl fun i hi => ?_
    exact zipWith_getD _ hp.symm (Finset.mem_range.1 hi)
  have e2 : (meanOver (range (test.map fun t => (meanOf train - t) ^ 2).length) fun i => (test.map fun t => (meanOf train - t) ^ 2).getD i 0) =
      meanSq (fun i => test.getD i 0) (fun _ => meanOf train) test.length := by
    unfold meanSq meanOver
    rw [List.length_map]
    congr 1
    refine Finset.sum_congr rfl fun i hi => ?_
    refine (map_getD_lt (Finset.mem_range.1 hi) _ _ 0).trans ?_
    ring
  rw [e1, e2]
  unfold floatDiv
  simp only [Option.bind_some]
  rw [if_neg hpos]
  rfl

theorem zip_map_map {α β γ δ : Type} (f : α → β) (g : α → γ) (h : α → δ) (l : List α) : (l.map f).zip ((l.map g).zip (l.map h)) = l.map fun i => (f i, g i, h i) := by
  induction l with
  | nil => rfl
  | cons a l ih => simp [ih]

/-- C78: `smse` is the mean over the outputs with test observations of the mean squared error relative to that of predicting the training mean. The
hypotheses are that some output has test observations and that each of those has training observations whose mean is not all of its test observations. -/
theorem C78_smse (test pred train : List (List ℝ)) (hp : SameShape test pred) (hl : test.length ≤ train.length) (hne : (tested test).Nonempty)
    (htr : ∀ d ∈ tested test, train.getD d [] ≠ [])
    (hvar : ∀ d ∈ tested test, ∃ i < (test.getD d []).length, (test.getD d []).getD i 0 ≠ meanOf (train.getD d [])) :
    smse test pred train = .ok (some (meanOver (tested test) fun d => smseOf (test.getD d []) (pred.getD d []) (train.getD d []))) := by
  have hmem : ∀ d ∈ (List.range test.length).filter (fun i => decide (0 < (test.getD i []).length)), d ∈ tested test := by
    intro d hd
    have := List.mem_filter.1 hd
    exact Finset.mem_filter.2 ⟨Finset.mem_range.2 (List.mem_range.1 this.1), of_decide_eq_true this.2⟩
  have hset : (range test.length).filter (fun i => decide (0 < (test.getD i []).length) = true) = tested test := by
    unfold tested; congr 1; ext i; simp
  unfold smse
  rw [filterNonempty_ok test pred train hp.1.ge hl]
  simp only [ok_bind]
  rw [zip_map_map, mapExcept_map, mapExcept_ok (g := fun d => some (smseOf (test.getD d []) (pred.getD d []) (train.getD d []))) ?_]
  · simp only [ok_bind]
    rw [show (List.map (fun d => some (smseOf (test.getD d []) (pred.getD d []) (train.getD d [])))
        ((List.range test.length).filter fun i => decide (0 < (test.getD i []).length))) =
        (((List.range test.length).filter fun i => decide (0 < (test.getD i []).length)).map fun d => smseOf (test.getD d []) (pred.getD d []) (train.getD d [])).map some
      by rw [List.map_map]; rfl, npMeanFloats_some, npMeanFloat_filter _ _ _ (by rw [hset]; exact hne), hset]
    rfl
  · intro d hd
    have hd' := hmem d hd
    exact smseTerm_ok (Finset.mem_filter.1 hd').2 (hp.2 d) (htr d hd') (hvar d hd')

theorem smseTerm_none {test pred train : List ℝ} (hp : pred.length = test.length) (h : train ≠ [] → ∀ i < test.length, test.getD i 0 = meanOf train) :
    smseTerm test pred train = .ok none := by
  unfold smseTerm broadcast2
  rw [if_pos hp.symm]
  simp only [ok_bind]
  by_cases htr : train = []
  · rw [htr]
    simp [npMeanFloat, floatDiv, pure, Except.pure]
  · have h0 : npMeanFloat train = some (meanOf train) := by
      rw [npMeanFloat_mean htr]; unfold meanOver meanOf; rw [Finset.card_range]
    rw [h0]
    simp only [Option.bind_some]
    by_cases ht : test = []
    · rw [ht]
      simp [npMeanFloat, floatDiv, pure, Except.pure]
    · have hz : (npMeanFloat (test.map fun t => (meanOf train - t) ^ 2)) = some 0 := by
        have e : test.map (fun t => (meanOf train - t) ^ 2) = test.map fun _ => 0 := List.map_congr_left fun t ht => by
          obtain ⟨i, hi, rfl⟩ := mem_getD ht 0
          rw [h htr i hi, sub_self]
          norm_num
        rw [e]
        simp [npMeanFloat, ht]
      rw [hz]
      unfold floatDiv
      cases npMeanFloat (List.zipWith (fun a b => (a - b) ^ 2) test pred) <;> simp [pure, Except.pure]

theorem npMeanFloats_none {l : List (Option ℝ)} (h : l = [] ∨ none ∈ l) : npMeanFloats l = none := by
  unfold npMeanFloats
  rcases h with rfl | h
  · rfl
  · have : l.mapM id = none := by
      induction l with
      | nil => cases h
      | cons x l ih =>
        rw [List.mapM_cons]
        rcases List.mem_cons.1 h with h | h
        · rw [← h]; rfl
        · rw [ih h]; cases x <;> rfl
    rw [this]
    rfl

/-- C78: otherwise it is not a finite number: when no output has test observations, or one that has them has no training observations or only test observations that equal the
mean of these. -/
theorem C78_smse_undefined (test pred train : List (List ℝ)) (hp : SameShape test pred) (hl : test.length ≤ train.length)
    (h : tested test = ∅ ∨ ∃ d ∈ tested test, train.getD d [] ≠ [] → ∀ i < (test.getD d []).length, (test.getD d []).getD i 0 = meanOf (train.getD d [])) :
    smse test pred train = .ok none := by
  classical
  unfold smse
  rw [filterNonempty_ok test pred train hp.1.ge hl]
  simp only [ok_bind]
  rw [zip_map_map, mapExcept_map, mapExcept_ok (g := fun d => if train.getD d [] ≠ [] → ∀ i < (test.getD d []).length, (test.getD d []).getD i 0 = meanOf (train.getD d []) then none
    else some (smseOf (test.getD d []) (pred.getD d []) (train.getD d []))) ?_]
  · simp only [ok_bind]
    rw [npMeanFloats_none]
    · rfl
    rcases h with h | ⟨d, hd, h⟩
    · left
      rw [List.map_eq_nil_iff, List.eq_nil_iff_forall_not_mem]
      intro d hd
      have := List.mem_filter.1 hd
      have : d ∈ tested test := Finset.mem_filter.2 ⟨Finset.mem_range.2 (List.mem_range.1 this.1), of_decide_eq_true this.2⟩
      rw [h] at this
      exact absurd this (Finset.notMem_empty _)
    · right
      obtain ⟨h1, h2⟩ := Finset.mem_filter.1 hd
      exact List.mem_map.2 ⟨d, List.mem_filter.2 ⟨List.mem_range.2 (Finset.mem_range.1 h1), decide_eq_true h2⟩, if_pos h⟩
  · intro d hd
    have h1 := of_decide_eq_true (List.mem_filter.1 hd).2
    by_cases hc : train.getD d [] ≠ [] → ∀ i < (test.getD d []).length, (test.getD d []).getD i 0 = meanOf (train.getD d [])
    · simp only [if_pos hc]
      exact smseTerm_none (hp.2 d) hc
    · simp only [if_neg hc]
      push Not at hc
      exact smseTerm_ok h1 (hp.2 d) hc.1 hc.2

/-- test observations but no training observations of an output -/
example : smse [[1], [2, 3]] [[1], [2, 2]] [[0, 1], []] = .ok none :=
  C78_smse_undefined _ _ _ ⟨rfl, fun d => by match d with | 0 => rfl | 1 => rfl | _ + 2 => rfl⟩ le_rfl (.inr ⟨1, by simp [tested], fun h => absurd rfl h⟩)

theorem smseTerm_single {test pred : List ℝ} (train : List ℝ) (h : pred.length = 1) :
    smseTerm test pred train = smseTerm test (List.replicate test.length (pred.getD 0 0)) train := by
  obtain ⟨p, rfl⟩ := List.length_eq_one_iff.1 h
  have e : broadcast2 (fun a b => (a - b) ^ 2) test [p] = broadcast2 (fun a b => (a - b) ^ 2) test (List.replicate test.length p) := by
    unfold broadcast2
    rw [if_pos (by simp : test.length = (List.replicate test.length p).length)]
    have hz : List.zipWith (fun a b : ℝ => (a - b) ^ 2) test (List.replicate test.length p) = test.map fun a => (a - p) ^ 2 := by
      induction test with
      | nil => rfl
      | cons t l ih => simp [List.replicate_succ, ih]
    rw [hz]
    split_ifs with h1
    · obtain ⟨t, rfl⟩ := List.length_eq_one_iff.1 h1
      rfl
    · rfl
  show (broadcast2 _ test [p] >>= _) = broadcast2 _ test (List.replicate test.length p) >>= _
  rw [e]

theorem mapExcept_congr_mem {α β : Type} {f g : α → Except PyErr β} : ∀ {l : List α}, (∀ x ∈ l, f x = g x) → mapExcept f l = mapExcept g l
  | [], _ => rfl
  | a :: l, h => by
    show (do let y ← f a; let r ← mapExcept f l; pure (y :: r)) = (do let y ← g a; let r ← mapExcept g l; pure (y :: r))
    rw [h a (List.mem_cons_self ..), mapExcept_congr_mem fun x hx => h x (List.mem_cons_of_mem a hx)]

/-- C78: a single prediction for an output is compared with all of its test observations: the score is the one of as many equal predictions -/
theorem C78_smse_single (test pred train : List (List ℝ)) (hl : test.length ≤ pred.length) (hl' : test.length ≤ train.length) :
    smse test pred train = smse test (forEach test pred) train := by
  have h1 : test.length ≤ (forEach test pred).length := by simp [forEach]
  unfold smse
  rw [filterNonempty_ok test pred train hl hl', filterNonempty_ok test (forEach test pred) train h1 hl']
  simp only [ok_bind]
  rw [zip_map_map, zip_map_map, mapExcept_map, mapExcept_map]
  congr 1
  refine mapExcept_congr_mem fun d hd => ?_
  have hd' : d < test.length := List.mem_range.1 (List.mem_filter.1 hd).1
  have e : (forEach test pred).getD d [] = if (pred.getD d []).length = 1 then List.replicate (test.getD d []).length ((pred.getD d []).getD 0 0) else pred.getD d [] := by
    unfold forEach
    simp [List.getD_eq_getElem?_getD, hd']
  simp only []
  rw [e]
  split_ifs with h
  · exact smseTerm_single _ h
  · rfl

theorem mapExcept_only_error {α β : Type} {f : α → Except PyErr β} {e : PyErr} (he : ∀ a x, f a = .error x → x = e) : ∀ {l : List α}, (∃ a ∈ l, f a = .error e) → mapExcept f l = .error e
  | [], h => by obtain ⟨a, ha, _⟩ := h; cases ha
  | b :: l, h => by
    have : mapExcept f (b :: l) = (do let y ← f b; let r ← mapExcept f l; pure (y :: r)) := rfl
    rw [this]
    cases hb : f b with
    | error x => rw [he b x hb]; rfl
    | ok y =>
      have : mapExcept f l = .error e := by
        obtain ⟨a, ha, hf⟩ := h
        rcases List.mem_cons.1 ha with rfl | ha
        · rw [hb] at hf; cases hf
        · exact mapExcept_only_error he ⟨a, ha, hf⟩
      rw [this]; rfl

theorem smseTerm_error {test pred train : List ℝ} {x : PyErr} (h : smseTerm test pred train = .error x) : x = .valueError := by
  unfold smseTerm broadcast2 at h
  split_ifs at h <;> simp [pure, Except.pure, bind, Except.bind] at h
  exact h.symm

/-- C78: any other number of predictions for an output with two or more test observations is an error, not a score -/
theorem C78_smse_refused (test pred train : List (List ℝ)) (hl : test.length ≤ pred.length) (hl' : test.length ≤ train.length)
    (h : ∃ d ∈ tested test, 1 < (test.getD d []).length ∧ (pred.getD d []).length ≠ 1 ∧ (pred.getD d []).length ≠ (test.getD d []).length) :
    smse test pred train = .error .valueError := by
  unfold smse
  rw [filterNonempty_ok test pred train hl hl']
  simp only [ok_bind]
  rw [zip_map_map, mapExcept_map, mapExcept_only_error (e := .valueError) (fun _ _ => smseTerm_error)]
  · rfl
  · obtain ⟨d, hd, h1, h2, h3⟩ := h
    obtain ⟨h4, h5⟩ := Finset.mem_filter.1 hd
    refine ⟨d, List.mem_filter.2 ⟨List.mem_range.2 (Finset.mem_range.1 h4), decide_eq_true h5⟩, ?_⟩
    show smseTerm _ _ _ = _
    unfold smseTerm broadcast2
    rw [if_neg (Ne.symm h3), if_neg h2, if_neg (show ¬ (test.getD d []).length = 1 by omega)]
    rfl

/-- the mean of the training observations given once -/
example : smse [[1, 3], [2]] [[2], [0]] [[0], [1]] = smse [[1, 3], [2]] [[2, 2], [0]] [[0], [1]] := C78_smse_single _ _ _ le_rfl le_rfl

example : smse [[1, 3, 4], [2]] [[2, 2], [0]] [[0], [1]] = .error .valueError := C78_smse_refused _ _ _ le_rfl le_rfl ⟨0, by simp [tested], by simp, by simp, by simp⟩

theorem filter_positions {α β γ : Type} (p : β → Bool) (f : α → β) (g : α → γ) (db : β) (dc : γ) : ∀ l : List α,
    ((List.range (l.map f).length).filter fun i => p ((l.map f).getD i db)).map (fun i => (l.map g).getD i dc) = (l.filter fun a => p (f a)).map g
  | [] => rfl
  | a :: l => by
    have ih := filter_positions p f g db dc l
    rw [List.map_cons, List.map_cons, List.length_cons, List.range_succ_eq_map, List.filter_cons, List.filter_map]
    by_cases h : p (f a) = true
    · simp only [List.getD_cons_zero, h, if_true, List.map_cons, List.map_map]
      rw [List.filter_cons_of_pos (p := fun a => p (f a)) h, List.map_cons, ← ih]
      rfl
    · simp only [List.getD_cons_zero, h, if_false, Bool.false_eq_true, List.map_map]
      rw [List.filter_cons_of_neg (p := fun a => p (f a)) h, ← ih]
      rfl

theorem zipWith_map_same {α : Type} (h : ℝ → ℝ → ℝ) (f g : α → ℝ) (l : List α) : List.zipWith h (l.map f) (l.map g) = l.map fun i => h (f i) (g i) := by
  induction l with
  | nil => rfl
  | cons a l ih => simp [ih]

theorem broadcast2_map {α : Type} (h : ℝ → ℝ → ℝ) (f g : α → ℝ) (l : List α) : broadcast2 h (l.map f) (l.map g) = .ok (l.map fun i => h (f i) (g i)) := by
  unfold broadcast2
  rw [if_pos (by simp), zipWith_map_same]

theorem filterBySelection_ok {a b c : ℕ → List ℝ} {I : List ℕ} {S : ℕ → List ℕ} (ha : ∀ d ∈ I, ∀ i ∈ S d, i < (a d).length) (hb : ∀ d ∈ I, ∀ i ∈ S d, i < (b d).length)
    (hc : ∀ d ∈ I, ∀ i ∈ S d, i < (c d).length) : filterBySelection (I.map a) (I.map b) (I.map c) (I.map S) = .ok
      (I.map (fun d => (S d).map fun i => (a d).getD i 0), I.map (fun d => (S d).map fun i => (b d).getD i 0), I.map fun d => (S d).map fun i => (c d).getD i 0) := by
  have key : ∀ x : ℕ → List ℝ, (∀ d ∈ I, ∀ i ∈ S d, i < (x d).length) → mapExcept (fun p : List ℝ × List ℕ => fancyIndex p.1 p.2) ((I.map x).zip (I.map S)) =
      .ok (I.map fun d => (S d).map fun i => (x d).getD i 0) := by
    intro x hx
    rw [List.zip_map', mapExcept_map]
    exact mapExcept_ok fun d hd => filterList_ok 0 _ _ (hx d hd)
  unfold filterBySelection
  rw [key a ha, key b hb, key c hc]
  rfl

theorem neg_log_normalDensity (μ t : ℝ) {v : ℝ} (hv : 0 < v) : -Real.log (normalDensity μ v t) = 1 / 2 * ((t - μ) ^ 2 / v + Real.log (2 * Real.pi * v)) := by
  have h1 : 0 < 2 * Real.pi * v := by have := Real.pi_pos; positivity
  unfold normalDensity
  rw [Real.log_mul (inv_ne_zero (Real.sqrt_ne_zero'.2 h1)) (Real.exp_ne_zero _), Real.log_inv, Real.log_sqrt h1.le, Real.log_exp]
  field_simp
  ring

theorem meanOver_mul (c : ℝ) (s : Finset ℕ) (f : ℕ → ℝ) : c * meanOver s f = meanOver s fun i => c * f i := by
  unfold meanOver
  rw [← Finset.mul_sum, mul_div_assoc]

theorem meanOver_congr {s : Finset ℕ} {f g : ℕ → ℝ} (h : ∀ i ∈ s, f i = g i) : meanOver s f = meanOver s g := by
  unfold meanOver; rw [Finset.sum_congr rfl h]

theorem flatNonzero_set (vs : List ℝ) : (range vs.length).filter (fun i => (open Classical in decide (vs.getD i 0 ≠ 0)) = true) = uncertain vs := by
  unfold uncertain; ext i; simp

theorem nlpdTerm_ok {test pred vs : List ℝ} (hv : ∀ i ∈ uncertain vs, 0 ≤ vs.getD i 0) (hne : (uncertain vs).Nonempty) :
    nlpdTerm ((flatNonzero vs).map fun i => test.getD i 0) ((flatNonzero vs).map fun i => pred.getD i 0) ((flatNonzero vs).map fun i => vs.getD i 0) =
      .ok (some (nlpdOf test pred vs)) := by
  have hmem : ∀ i ∈ flatNonzero vs, i ∈ uncertain vs := by
    intro i hi
    unfold flatNonzero at hi
    rw [List.mem_filter] at hi
    unfold uncertain
    rw [Finset.mem_filter]
    exact ⟨Finset.mem_range.2 (List.mem_range.1 hi.1), by simpa using hi.2⟩
  unfold nlpdTerm
  rw [broadcast2_map]
  simp only [ok_bind]
  rw [broadcast2_map]
  simp only [ok_bind]
  rw [List.map_map, broadcast2_map]
  simp only [ok_bind]
  rw [if_neg]
  · unfold flatNonzero
    rw [npMeanFloat_filter _ _ _ (by rw [flatNonzero_set]; exact hne), flatNonzero_set]
    simp only [Option.map_some]
    rw [meanOver_mul]
    refine congrArg (fun x => Except.ok (some x)) (meanOver_congr fun i hi => ?_)
    have h0 : vs.getD i 0 ≠ 0 := by unfold uncertain at hi; exact (Finset.mem_filter.1 hi).2
    rw [neg_log_normalDensity _ _ (lt_of_le_of_ne (hv i hi) (Ne.symm h0))]
    norm_num
  · rintro ⟨v, hv1, hv2⟩
    obtain ⟨i, hi, rfl⟩ := List.mem_map.1 hv1
    exact absurd (hv i (hmem i hi)) (not_le.2 hv2)

/-- C78: `nlpd` is the mean over the outputs, and within each over its points, of the negative logarithm of the predicted density. Only points with nonzero
predicted variance, and outputs with such a point, count. The hypotheses are that there is one and that no variance is negative. -/
theorem C78_nlpd (test pred vss : List (List ℝ)) (hp : SameShape test pred) (hv : SameShape test vss) (hnn : ∀ vs ∈ vss, ∀ v ∈ vs, 0 ≤ v)
    (hne : (informative vss).Nonempty) :
    nlpd test pred vss = .ok (some (meanOver (informative vss) fun d => nlpdOf (test.getD d []) (pred.getD d []) (vss.getD d []))) := by
  have hS : ∀ d, ∀ i ∈ flatNonzero (vss.getD d []), i < (vss.getD d []).length := fun d i hi => List.mem_range.1 (List.mem_filter.1 hi).1
  have hnn' : ∀ d i, 0 ≤ (vss.getD d []).getD i 0 := by
    intro d i
    by_cases hd : d < vss.length
    · by_cases hi : i < (vss.getD d []).length
      · have h1 : vss.getD d [] ∈ vss := by rw [List.getD_eq_getElem _ _ hd]; exact List.getElem_mem hd
        refine hnn _ h1 _ ?_
        rw [List.getD_eq_getElem _ _ hi]; exact List.getElem_mem hi
      · rw [List.getD_eq_default _ _ (by omega)]
    · rw [List.getD_eq_default vss _ (by omega)]; simp
  have hflat : ∀ vs : List ℝ, (0 < ((flatNonzero vs)).length ↔ (uncertain vs).Nonempty) := by
    intro vs
    unfold flatNonzero
    rw [filter_range_card, flatNonzero_set, Finset.card_pos]
  unfold nlpd
  rw [filterNonempty_ok test pred vss hp.1.ge hv.1.ge]
  simp only [ok_bind, List.map_map]
  rw [show (flatNonzero ∘ fun i => vss.getD i []) = fun i => flatNonzero (vss.getD i []) from rfl, filterBySelection_ok
    (fun d _ i hi => by rw [← hv.2 d]; exact hS d i hi) (fun d _ i hi => by rw [hp.2 d, ← hv.2 d]; exact hS d i hi) (fun d _ i hi => hS d i hi)]
  simp only [ok_bind]
  rw [filterNonempty_ok _ _ _ (by simp) (by simp)]
  simp only [ok_bind]
  rw [filter_positions (fun x : List ℝ => decide (0 < x.length)), filter_positions (fun x : List ℝ => decide (0 < x.length)),
    filter_positions (fun x : List ℝ => decide (0 < x.length)), zip_map_map, mapExcept_map, List.filter_filter]
  have hset : (range test.length).filter (fun d => (decide (0 < ((flatNonzero (vss.getD d [])).map fun i => (test.getD d []).getD i 0).length) &&
      decide (0 < (test.getD d []).length)) = true) = informative vss := by
    unfold informative
    rw [hv.1]
    ext d
    simp only [Finset.mem_filter, Bool.and_eq_true, decide_eq_true_eq, List.length_map, hflat]
    refine and_congr_right fun hd => ⟨fun h => h.1, fun h => ⟨h, ?_⟩⟩
    obtain ⟨i, hi⟩ := h
    unfold uncertain at hi
    have := Finset.mem_range.1 (Finset.mem_filter.1 hi).1
    rw [← hv.2 d]; omega
  rw [mapExcept_ok (g := fun d => some (nlpdOf (test.getD d []) (pred.getD d []) (vss.getD d []))) ?_]
  · simp only [ok_bind]
    rw [show ∀ l : List ℕ, l.map (fun d => some (nlpdOf (test.getD d []) (pred.getD d []) (vss.getD d []))) =
        (l.map fun d => nlpdOf (test.getD d []) (pred.getD d []) (vss.getD d [])).map some from fun l => by rw [List.map_map]; rfl, npMeanFloats_some,
      npMeanFloat_filter _ _ _ (by rw [hset]; exact hne), hset]
    rfl
  · intro d hd
    have := (List.mem_filter.1 hd).2
    simp only [Bool.and_eq_true, decide_eq_true_eq, List.length_map, hflat] at this
    exact nlpdTerm_ok (fun i _ => hnn' d i) this.1

/-- C78: and `nlpd` is not a finite number when no test observation has a nonzero predicted variance. -/
theorem C78_nlpd_undefined (test pred vss : List (List ℝ)) (hp : SameShape test pred) (hv : SameShape test vss) (he : informative vss = ∅) : nlpd test pred vss = .ok none := by
  have hS : ∀ d, ∀ i ∈ flatNonzero (vss.getD d []), i < (vss.getD d []).length := fun d i hi => List.mem_range.1 (List.mem_filter.1 hi).1
  have hflat : ∀ vs : List ℝ, (0 < ((flatNonzero vs)).length ↔ (uncertain vs).Nonempty) := by
    intro vs
    unfold flatNonzero
    rw [filter_range_card, flatNonzero_set, Finset.card_pos]
  unfold nlpd
  rw [filterNonempty_ok test pred vss hp.1.ge hv.1.ge]
  simp only [ok_bind, List.map_map]
  rw [show (flatNonzero ∘ fun i => vss.getD i []) = fun i => flatNonzero (vss.getD i []) from rfl, filterBySelection_ok
    (fun d _ i hi => by rw [← hv.2 d]; exact hS d i hi) (fun d _ i hi => by rw [hp.2 d, ← hv.2 d]; exact hS d i hi) (fun d _ i hi => hS d i hi)]
  simp only [ok_bind]
  rw [filterNonempty_ok _ _ _ (by simp) (by simp)]
  simp only [ok_bind]
  rw [filter_positions (fun x : List ℝ => decide (0 < x.length)), filter_positions (fun x : List ℝ => decide (0 < x.length)),
    filter_positions (fun x : List ℝ => decide (0 < x.length)), zip_map_map, mapExcept_map, List.filter_filter]
  have hnil : (List.range test.length).filter (fun d => (decide (0 < ((flatNonzero (vss.getD d [])).map fun i => (test.getD d []).getD i 0).length) &&
      decide (0 < (test.getD d []).length))) = [] := by
    rw [List.eq_nil_iff_forall_not_mem]
    intro d hd
    obtain ⟨h1, h2⟩ := List.mem_filter.1 hd
    simp only [Bool.and_eq_true, decide_eq_true_eq, List.length_map, hflat] at h2
    have : d ∈ informative vss := by
      unfold informative
      rw [hv.1]
      exact Finset.mem_filter.2 ⟨Finset.mem_range.2 (List.mem_range.1 h1), h2.1⟩
    rw [he] at this
    exact absurd this (Finset.notMem_empty _)
  rw [hnil]
  rfl

/-- both predictions are certain -/
example : nlpd [[1], [2]] [[1], [3]] [[0], [0]] = .ok none :=
  C78_nlpd_undefined _ _ _ ⟨rfl, fun d => by match d with | 0 => rfl | 1 => rfl | _ + 2 => rfl⟩ ⟨rfl, fun d => by match d with | 0 => rfl | 1 => rfl | _ + 2 => rfl⟩ (by
    unfold informative
    rw [Finset.filter_eq_empty_iff]
    intro d hd
    have : d < 2 := Finset.mem_range.1 hd
    interval_cases d <;> simp [uncertain])

theorem meanSq_nonneg (x y : ℕ → ℝ) (n : ℕ) : 0 ≤ meanSq x y n := by
  unfold meanSq meanOver
  exact div_nonneg (Finset.sum_nonneg fun _ _ => sq_nonneg _) (Nat.cast_nonneg _)

theorem meanSq_eq_zero {x y : ℕ → ℝ} {n : ℕ} : meanSq x y n = 0 ↔ ∀ i < n, x i = y i := by
  unfold meanSq meanOver
  rw [Finset.card_range, div_eq_zero_iff, Finset.sum_eq_zero_iff_of_nonneg fun _ _ => sq_nonneg _]
  constructor
  · rintro (h | h) i hi
    · exact sub_eq_zero.1 (by simpa using h i (Finset.mem_range.2 hi))
    · have : n = 0 := by exact_mod_cast h
      omega
  · exact fun h => Or.inl fun i hi => by rw [h i (Finset.mem_range.1 hi)]; simp

theorem meanOver_const {s : Finset ℕ} (h : s.Nonempty) (c : ℝ) : meanOver s (fun _ => c) = c := by
  unfold meanOver
  have : (s.card : ℝ) ≠ 0 := by exact_mod_cast h.card_pos.ne'
  rw [Finset.sum_const, nsmul_eq_mul]
  field_simp

/-- the situation in which `smse` is a number -/
structure Scorable (test pred train : List (List ℝ)) : Prop where
  shape : SameShape test pred
  trained : test.length ≤ train.length
  some_tested : (tested test).Nonempty
  observed : ∀ d ∈ tested test, train.getD d [] ≠ []
  varied : ∀ d ∈ tested test, ∃ i < (test.getD d []).length, (test.getD d []).getD i 0 ≠ meanOf (train.getD d [])

/-- C78: predicting the mean of the training observations scores exactly 1 -/
theorem C78_smse_reference (test pred train : List (List ℝ)) (h : Scorable test pred train)
    (hpred : ∀ d ∈ tested test, ∀ i < (test.getD d []).length, (pred.getD d []).getD i 0 = meanOf (train.getD d [])) : smse test pred train = .ok (some 1) := by
  rw [C78_smse test pred train h.shape h.trained h.some_tested h.observed h.varied]
  congr 2
  rw [← meanOver_const h.some_tested 1]
  refine meanOver_congr fun d hd => ?_
  obtain ⟨i, hi, hne⟩ := h.varied d hd
  have h0 : meanSq (fun i => (test.getD d []).getD i 0) (fun _ => meanOf (train.getD d [])) (test.getD d []).length ≠ 0 := fun e => hne (meanSq_eq_zero.1 e i hi)
  unfold smseOf
  rw [show meanSq (fun i => (test.getD d []).getD i 0) (fun i => (pred.getD d []).getD i 0) (test.getD d []).length =
    meanSq (fun i => (test.getD d []).getD i 0) (fun _ => meanOf (train.getD d [])) (test.getD d []).length by
      unfold meanSq; exact meanOver_congr fun i hi => by simp only [hpred d hd i (Finset.mem_range.1 hi)]]
  exact div_self h0

/-- C78: the score is never negative, and it is zero exactly when every test observation is predicted exactly -/
theorem C78_smse_zero (test pred train : List (List ℝ)) (h : Scorable test pred train) : ∃ e, smse test pred train = .ok (some e) ∧ 0 ≤ e ∧
    (e = 0 ↔ ∀ d ∈ tested test, ∀ i < (test.getD d []).length, (pred.getD d []).getD i 0 = (test.getD d []).getD i 0) := by
  have hnn : ∀ d, 0 ≤ smseOf (test.getD d []) (pred.getD d []) (train.getD d []) := fun d => div_nonneg (meanSq_nonneg _ _ _) (meanSq_nonneg _ _ _)
  refine ⟨_, C78_smse test pred train h.shape h.trained h.some_tested h.observed h.varied,
    div_nonneg (Finset.sum_nonneg fun d _ => hnn d) (Nat.cast_nonneg _), ?_⟩
  have hc : ((tested test).card : ℝ) ≠ 0 := by exact_mod_cast h.some_tested.card_pos.ne'
  unfold meanOver
  rw [div_eq_zero_iff, Finset.sum_eq_zero_iff_of_nonneg fun d _ => hnn d]
  constructor
  · rintro (h1 | h1) d hd i hi
    · have h2 := h1 d hd
      obtain ⟨j, hj, hne⟩ := h.varied d hd
      unfold smseOf at h2
      rw [div_eq_zero_iff] at h2
      rcases h2 with h2 | h2
      · exact (meanSq_eq_zero.1 h2 i hi).symm
      · exact absurd (meanSq_eq_zero.1 h2 j hj) hne
    · exact absurd h1 hc
  · refine fun h1 => Or.inl fun d hd => ?_
    unfold smseOf
    rw [meanSq_eq_zero.2 fun i hi => (h1 d hd i hi).symm, zero_div]

theorem inUnits_getD (a b : ℕ → ℝ) (yss : List (List ℝ)) (d : ℕ) : (inUnits a b yss).getD d [] = (yss.getD d []).map fun y => a d * y + b d := by
  unfold inUnits
  by_cases hd : d < yss.length
  · rw [vmk_getD_lt hd]
  · rw [List.getD_eq_default _ _ (by rw [vmk_length]; omega), List.getD_eq_default yss _ (by omega)]; rfl

theorem meanOf_units (a b : ℝ) {l : List ℝ} (h : l ≠ []) : meanOf (l.map fun y => a * y + b) = a * meanOf l + b := by
  have hl : (l.length : ℝ) ≠ 0 := by exact_mod_cast (List.length_pos_of_ne_nil h).ne'
  unfold meanOf
  rw [List.length_map, Finset.sum_congr rfl fun i hi => map_getD_lt (Finset.mem_range.1 hi) (fun y => a * y + b) _ 0, Finset.sum_add_distrib, Finset.sum_const,
    Finset.card_range, nsmul_eq_mul, ← Finset.mul_sum]
  field_simp

theorem meanSq_affine (a b : ℝ) {x y x' y' : ℕ → ℝ} {n : ℕ} (hx : ∀ i < n, x' i = a * x i + b) (hy : ∀ i < n, y' i = a * y i + b) :
    meanSq x' y' n = a ^ 2 * meanSq x y n := by
  unfold meanSq
  rw [meanOver_mul]
  refine meanOver_congr fun i hi => ?_
  rw [hx i (Finset.mem_range.1 hi), hy i (Finset.mem_range.1 hi)]
  ring

theorem tested_units (a b : ℕ → ℝ) (test : List (List ℝ)) : tested (inUnits a b test) = tested test := by
  unfold tested
  have : (inUnits a b test).length = test.length := vmk_length _ _
  rw [this]
  simp only [inUnits_getD, List.length_map]

theorem inUnits_length (a b : ℕ → ℝ) (yss : List (List ℝ)) : (inUnits a b yss).length = yss.length := vmk_length _ _

theorem sameShape_units {a b a' b' : ℕ → ℝ} {test pred : List (List ℝ)} (h : SameShape test pred) : SameShape (inUnits a b test) (inUnits a' b' pred) :=
  ⟨by rw [inUnits_length, inUnits_length, h.1], fun d => by rw [inUnits_getD, inUnits_getD, List.length_map, List.length_map, h.2]⟩

/-- C78: the score does not depend on the units of the outputs: a factor and an offset per output change nothing -/
theorem C78_smse_units (test pred train : List (List ℝ)) (h : Scorable test pred train) (a b : ℕ → ℝ) (ha : ∀ d, a d ≠ 0) :
    smse (inUnits a b test) (inUnits a b pred) (inUnits a b train) = smse test pred train := by
  rw [C78_smse test pred train h.shape h.trained h.some_tested h.observed h.varied, C78_smse]
  · rw [tested_units]
    congr 2
    refine meanOver_congr fun d hd => ?_
    unfold smseOf
    rw [inUnits_getD, inUnits_getD, inUnits_getD, List.length_map, meanOf_units _ _ (h.observed d hd),
      meanSq_affine (a d) (b d) (x := fun i => (test.getD d []).getD i 0) (y := fun i => (pred.getD d []).getD i 0)
        (fun i hi => map_getD_lt hi _ _ 0) (fun i hi => map_getD_lt (by rw [h.shape.2 d]; exact hi) _ _ 0),
      meanSq_affine (a d) (b d) (x := fun i => (test.getD d []).getD i 0) (y := fun _ => meanOf (train.getD d []))
        (fun i hi => map_getD_lt hi _ _ 0) (fun i hi => rfl)]
    have := ha d
    rw [mul_div_mul_left _ _ (by positivity)]
  · exact sameShape_units h.shape
  · rw [inUnits_length, inUnits_length]; exact h.trained
  · rw [tested_units]; exact h.some_tested
  · intro d hd
    rw [tested_units] at hd
    rw [inUnits_getD]
    simpa using h.observed d hd
  · intro d hd
    rw [tested_units] at hd
    obtain ⟨i, hi, hne⟩ := h.varied d hd
    refine ⟨i, by rw [inUnits_getD, List.length_map]; exact hi, ?_⟩
    rw [inUnits_getD, inUnits_getD, map_getD_lt hi _ _ 0, meanOf_units _ _ (h.observed d hd)]
    intro e
    exact hne (mul_left_cancel₀ (ha d) (add_right_cancel e))

/-- C78: in other units `nlpd` moves by the mean logarithm of the factors, whatever the predictions: comparisons between models do not depend on the units -/
theorem C78_nlpd_units (test pred vss : List (List ℝ)) (hp : SameShape test pred) (hv : SameShape test vss) (hnn : ∀ vs ∈ vss, ∀ v ∈ vs, 0 ≤ v)
    (hne : (informative vss).Nonempty) (a b : ℕ → ℝ) (ha : ∀ d, a d ≠ 0) : ∃ e, nlpd test pred vss = .ok (some e) ∧
    nlpd (inUnits a b test) (inUnits a b pred) (inUnits (fun d => a d ^ 2) (fun _ => 0) vss) = .ok (some (e + meanOver (informative vss) fun d => Real.log |a d|)) := by
  have hget : ∀ d, (inUnits (fun d => a d ^ 2) (fun _ => 0) vss).getD d [] = (vss.getD d []).map fun v => a d ^ 2 * v := fun d => by
    rw [inUnits_getD]; simp
  have hget2 : ∀ d i, ((inUnits (fun d => a d ^ 2) (fun _ => 0) vss).getD d []).getD i 0 = a d ^ 2 * (vss.getD d []).getD i 0 := by
    intro d i
    rw [hget]
    by_cases hi : i < (vss.getD d []).length
    · rw [map_getD_lt hi _ _ 0]
    · rw [List.getD_eq_default _ _ (by rw [List.length_map]; omega), List.getD_eq_default _ _ (by omega), mul_zero]
  have hunc : ∀ d, uncertain ((inUnits (fun d => a d ^ 2) (fun _ => 0) vss).getD d []) = uncertain (vss.getD d []) := by
    intro d
    unfold uncertain
    rw [hget, List.length_map, ← hget]
    ext i
    simp only [Finset.mem_filter, hget2]
    have := ha d
    simp [this]
  have hinf : informative (inUnits (fun d => a d ^ 2) (fun _ => 0) vss) = informative vss := by
    unfold informative
    rw [inUnits_length]
    simp only [hunc]
  refine ⟨_, C78_nlpd test pred vss hp hv hnn hne, ?_⟩
  rw [C78_nlpd _ _ _ (sameShape_units hp) (sameShape_units hv) ?_ (by rw [hinf]; exact hne), hinf]
  · congr 2
    rw [show ∀ s : Finset ℕ, ∀ f g : ℕ → ℝ, meanOver s f + meanOver s g = meanOver s fun i => f i + g i from
      fun s f g => by unfold meanOver; rw [Finset.sum_add_distrib, add_div]]
    refine meanOver_congr fun d hd => ?_
    unfold informative at hd
    obtain ⟨hd1, hd2⟩ := Finset.mem_filter.1 hd
    unfold nlpdOf
    rw [hunc, ← meanOver_const hd2 (Real.log |a d|), show ∀ s : Finset ℕ, ∀ f g : ℕ → ℝ, meanOver s f + meanOver s g = meanOver s fun i => f i + g i from
      fun s f g => by unfold meanOver; rw [Finset.sum_add_distrib, add_div]]
    refine meanOver_congr fun i hi => ?_
    have hi2 := hi
    unfold uncertain at hi2
    obtain ⟨hi3, hi4⟩ := Finset.mem_filter.1 hi2
    have hi5 := Finset.mem_range.1 hi3
    have hvp : 0 < (vss.getD d []).getD i 0 := by
      refine lt_of_le_of_ne ?_ (Ne.symm hi4)
      have h1 : vss.getD d [] ∈ vss := by rw [List.getD_eq_getElem _ _ (Finset.mem_range.1 hd1)]; exact List.getElem_mem _
      refine hnn _ h1 _ ?_
      rw [List.getD_eq_getElem _ _ hi5]; exact List.getElem_mem _
    have ha' := ha d
    have hap : 0 < a d ^ 2 := by positivity
    rw [hget2, inUnits_getD, inUnits_getD, map_getD_lt (l := test.getD d []) (by rw [← hv.2 d]; exact hi5) _ _ 0, map_getD_lt (l := pred.getD d []) (by rw [hp.2 d, ← hv.2 d]; exact hi5) _ _ 0,
      neg_log_normalDensity _ _ (by positivity), neg_log_normalDensity _ _ hvp]
    have h2 : (a d * (test.getD d []).getD i 0 + b d - (a d * (pred.getD d []).getD i 0 + b d)) ^ 2 / (a d ^ 2 * (vss.getD d []).getD i 0) =
        ((test.getD d []).getD i 0 - (pred.getD d []).getD i 0) ^ 2 / (vss.getD d []).getD i 0 := by
      rw [← mul_div_mul_left (((test.getD d []).getD i 0 - (pred.getD d []).getD i 0) ^ 2) _ hap.ne']
      ring_nf
    have h3 : Real.log (2 * Real.pi * (a d ^ 2 * (vss.getD d []).getD i 0)) = Real.log (2 * Real.pi * (vss.getD d []).getD i 0) + 2 * Real.log |a d| := by
      rw [show 2 * Real.pi * (a d ^ 2 * (vss.getD d []).getD i 0) = (2 * Real.pi * (vss.getD d []).getD i 0) * |a d| ^ 2 by rw [sq_abs]; ring,
        Real.log_mul (by have := Real.pi_pos; positivity) (by positivity), Real.log_pow]
      norm_num
    rw [h2, h3]
    ring
  · intro vs hvs v hvm
    unfold inUnits at hvs
    obtain ⟨d, hd, rfl⟩ := mem_vmk_iff.1 hvs
    obtain ⟨y, hy, rfl⟩ := List.mem_map.1 hvm
    have h1 : vss.getD d [] ∈ vss := by rw [List.getD_eq_getElem _ _ hd]; exact List.getElem_mem _
    have := hnn _ h1 _ hy
    have := sq_nonneg (a d)
    simp only [add_zero]
    positivity

/-- C78: a point predicted with variance zero does not count: however wrong a prediction that claims certainty is, the score is the same -/
theorem C78_nlpd_certain (test pred pred' vss : List (List ℝ)) (hp : SameShape test pred) (hp' : SameShape test pred') (hv : SameShape test vss)
    (hnn : ∀ vs ∈ vss, ∀ v ∈ vs, 0 ≤ v) (hne : (informative vss).Nonempty)
    (heq : ∀ d i, (vss.getD d []).getD i 0 ≠ 0 → (pred.getD d []).getD i 0 = (pred'.getD d []).getD i 0) : nlpd test pred vss = nlpd test pred' vss := by
  rw [C78_nlpd _ _ _ hp hv hnn hne, C78_nlpd _ _ _ hp' hv hnn hne]
  congr 2
  refine meanOver_congr fun d _ => ?_
  unfold nlpdOf
  refine meanOver_congr fun i hi => ?_
  unfold uncertain at hi
  rw [heq d i (Finset.mem_filter.1 hi).2]

theorem argminFrom_spec (key : ℕ → ℝ) : ∀ (l : List ℕ) (best : ℕ), (l.Pairwise (· < ·)) → (∀ i ∈ l, best < i) →
    (argminFrom key best l = best ∨ argminFrom key best l ∈ l) ∧ (∀ i ∈ best :: l, key (argminFrom key best l) ≤ key i) ∧
    (∀ i ∈ best :: l, i < argminFrom key best l → key (argminFrom key best l) < key i)
  | [], best, _, _ => by simp [argminFrom]
  | j :: l, best, hl, hb => by
    rw [List.pairwise_cons] at hl
    unfold argminFrom
    by_cases h : key j < key best
    · rw [if_pos h]
      obtain ⟨h1, h2, h3⟩ := argminFrom_spec key l j hl.2 hl.1
      refine ⟨Or.inr ?_, ?_, ?_⟩
      · rcases h1 with h1 | h1
        · rw [h1]; exact List.mem_cons_self
        · exact List.mem_cons_of_mem _ h1
      · intro i hi
        rcases List.mem_cons.1 hi with rfl | hi
        · exact (h2 j List.mem_cons_self).trans h.le
        · exact h2 i hi
      · intro i hi hlt
        rcases List.mem_cons.1 hi with rfl | hi
        · exact (h2 j List.mem_cons_self).trans_lt h
        · exact h3 i hi hlt
    · rw [if_neg h]
      obtain ⟨h1, h2, h3⟩ := argminFrom_spec key l best hl.2 fun i hi => hb i (List.mem_cons_of_mem _ hi)
      refine ⟨h1.imp_right (List.mem_cons_of_mem _), ?_, ?_⟩
      · intro i hi
        rcases List.mem_cons.1 hi with rfl | hi
        · exact h2 i List.mem_cons_self
        · rcases List.mem_cons.1 hi with rfl | hi
          · exact (h2 best List.mem_cons_self).trans (not_lt.1 h)
          · exact h2 i (List.mem_cons_of_mem _ hi)
      · intro i hi hlt
        rcases List.mem_cons.1 hi with rfl | hi
        · exact h3 i List.mem_cons_self hlt
        · rcases List.mem_cons.1 hi with rfl | hi
          · rcases lt_or_eq_of_le (not_lt.1 h) with h4 | h4
            · exact (h2 best List.mem_cons_self).trans_lt h4
            · rw [← h4]
              exact h3 best List.mem_cons_self ((hb i List.mem_cons_self).trans hlt)
          · exact h3 i (List.mem_cons_of_mem _ hi) hlt

/-- C78: the emphasised column of a table is the first one with the least mean; a table without columns fails -/
theorem C78_best (results : List (ℝ × ℝ)) :
    (results = [] → bestColumn results = .error .valueError) ∧
    (results ≠ [] → ∃ b < results.length, bestColumn results = .ok b ∧ (∀ i < results.length, (results.getD b (0, 0)).1 ≤ (results.getD i (0, 0)).1) ∧
      ∀ i < b, (results.getD b (0, 0)).1 < (results.getD i (0, 0)).1) := by
  refine ⟨fun h => by subst h; rfl, fun h => ?_⟩
  obtain ⟨n, hn⟩ : ∃ n, results.length = n + 1 := ⟨results.length - 1, by have := List.length_pos_of_ne_nil h; omega⟩
  have hr : List.range results.length = 0 :: (List.range n).map Nat.succ := by rw [hn, List.range_succ_eq_map]
  have hpw : (List.range results.length).Pairwise (· < ·) := List.pairwise_lt_range
  rw [hr, List.pairwise_cons] at hpw
  obtain ⟨h1, h2, h3⟩ := argminFrom_spec (fun r => (results.getD r (0, 0)).1) _ 0 hpw.2 hpw.1
  have hmem : ∀ i, i < results.length ↔ i ∈ 0 :: (List.range n).map Nat.succ := fun i => by rw [← hr, List.mem_range]
  have hb : argminFrom (fun r => (results.getD r (0, 0)).1) 0 ((List.range n).map Nat.succ) < results.length := by
    rw [hmem]
    rcases h1 with h1 | h1
    · rw [h1]; exact List.mem_cons_self
    · exact List.mem_cons_of_mem _ h1
  refine ⟨_, hb, ?_, fun i hi => h2 i ((hmem i).1 hi), fun i hi => h3 i ((hmem i).1 (hi.trans hb)) hi⟩
  unfold bestColumn
  rw [hr]

/-- two outputs, the first with two test observations, the second with none -/
def benchTest : List (List ℝ) := [[1, 3], []]

theorem tested_benchTest : tested benchTest = {0} := by
  unfold tested benchTest
  ext i
  simp only [List.length_cons, List.length_nil, Finset.mem_filter, Finset.mem_range, Finset.mem_singleton]
  constructor
  · rintro ⟨h, h'⟩
    have : i = 0 ∨ i = 1 := by omega
    rcases this with rfl | rfl
    · rfl
    · simp at h'
  · rintro rfl; simp

/-- the hypotheses of the theorems on `smse` are met by two outputs of which only one has test observations -/
example : Scorable benchTest [[2, 3], []] [[0, 4], [5]] := by
  refine ⟨⟨rfl, fun d => ?_⟩, le_refl 2, by rw [tested_benchTest]; exact ⟨0, by simp⟩, ?_, ?_⟩
  · match d with
    | 0 => rfl
    | 1 => rfl
    | _ + 2 => rfl
  · intro d hd
    rw [tested_benchTest, Finset.mem_singleton] at hd
    subst hd
    simp
  · intro d hd
    rw [tested_benchTest, Finset.mem_singleton] at hd
    subst hd
    refine ⟨0, by simp [benchTest], ?_⟩
    simp [benchTest, meanOf, Finset.sum_range_succ]
    norm_num

/-- the hypotheses of the theorems on `nlpd` are met by two points of which one is predicted with variance zero -/
example : SameShape [[1, 3]] [[(2 : ℝ), 8]] ∧ SameShape [[1, 3]] [[(1 : ℝ), 0]] ∧ (∀ vs ∈ [[(1 : ℝ), 0]], ∀ v ∈ vs, 0 ≤ v) ∧ (informative [[(1 : ℝ), 0]]).Nonempty ∧
    nlpd [[1, 3]] [[2, 8]] [[1, 0]] = nlpd [[1, 3]] [[2, 3]] [[1, 0]] := by
  have sh : ∀ a b c e : ℝ, SameShape [[a, b]] [[c, e]] := fun a b c e => ⟨rfl, fun d => match d with | 0 => rfl | _ + 1 => rfl⟩
  have hnn : ∀ vs ∈ [[(1 : ℝ), 0]], ∀ v ∈ vs, 0 ≤ v := by simp
  have hne : (informative [[(1 : ℝ), 0]]).Nonempty := by
    refine ⟨0, ?_⟩
    unfold informative uncertain
    simp only [Finset.mem_filter]
    exact ⟨by simp, 0, by simp⟩
  refine ⟨sh _ _ _ _, sh _ _ _ _, hnn, hne, C78_nlpd_certain _ _ _ _ (sh _ _ _ _) (sh _ _ _ _) (sh _ _ _ _) hnn hne ?_⟩
  rintro (_ | d) (_ | _ | i) h <;> simp at h ⊢

/-- the documented ranges of the arguments of `bench.py`, bench.py 18-58 -/
def BenchArgs.Documented (a : BenchArgs) (kern testtype : String) : Prop :=
  7 < a.nO ∧ 0 < a.d ∧ (0 < a.rq ∧ a.rq ≤ a.d) ∧ 0 < a.q ∧ 0 < a.eps ∧ kern ∈ ["rbf", "periodic", "matern", "mix"] ∧ testtype ∈ ["inv", "opt"]

/-- C79, the part that holds: with a test type given, the checks pass exactly on the documented arguments, with the documented kernel and seed where they are
left out. What is missing: leaving out the test type. -/
theorem C79_checks_partial (a : BenchArgs) (t : String) (ht : a.testtype = some t) :
    (a.Documented (a.kern.getD "rbf") t → benchChecks a = .ok (a.kern.getD "rbf", a.seed.getD 1234, t)) ∧
    (¬ a.Documented (a.kern.getD "rbf") t → benchChecks a = .error .assertionError) := by
  unfold BenchArgs.Documented benchChecks
  simp only [ht, Option.getD_some]
  constructor
  · rintro ⟨h1, h2, ⟨h3, h4⟩, h5, h6, h7, h8⟩
    rw [if_neg (not_not.2 h1), if_neg (not_not.2 h2), if_neg (not_not.2 h3), if_neg (not_not.2 h4), if_neg (not_not.2 h5), if_neg (not_not.2 h6),
      if_neg (not_not.2 h7), if_neg (not_not.2 h8)]
  · intro h
    by_contra hc
    split_ifs at hc <;> simp_all

/-- C79 fails: leaving out the test type, which is documented to mean `inv`, always ends in an AssertionError -/
theorem C79_default_violated (a : BenchArgs) (ht : a.testtype = none) : benchChecks a = .error .assertionError := by
  unfold benchChecks
  simp only [ht, Option.getD_none]
  rw [if_pos (show "inversion" ∉ ["inv", "opt"] by decide)]
  split_ifs <;> rfl

/-- a documented call without a test type -/
example : (⟨100, 2, 1, 1, 1, none, none, none⟩ : BenchArgs).Documented "rbf" "inv" ∧ (⟨100, 2, 1, 1, 1, none, none, some "inv"⟩ : BenchArgs).Documented "rbf" "inv" := by
  unfold BenchArgs.Documented
  norm_num

theorem genKernels_valid_aux {l : List ℝ} (hl : ∀ x ∈ l, 1 ≤ x) {f : ℝ → Kern} (hf : f ∈ benchKernFuncs) : ∀ k ∈ l.map f, k.Valid := by
  intro k hk
  obtain ⟨x, hx, rfl⟩ := List.mem_map.1 hk
  have h1 := hl x hx
  have h2 : Real.exp (-200) < 1 := by rw [← Real.exp_zero]; exact Real.exp_lt_exp.2 (by norm_num)
  have h3 := h2.trans_le h1
  have h4 := one_pos.trans_le h1
  simp only [benchKernFuncs, List.mem_cons, List.not_mem_nil, or_false] at hf
  rcases hf with rfl | rfl | rfl <;> simp [Kern.Valid, h3, h4]

theorem logspace01_pos (q : ℕ) : ∀ x ∈ logspace01 q, 1 ≤ x := by
  intro x hx
  unfold logspace01 at hx
  obtain ⟨i, _, rfl⟩ := mem_vmk_iff.1 hx
  exact Real.one_le_rpow (by norm_num) (by positivity)

/-- C79: `gen_kernels(q)` gives four lists, one per kernel type, of `q` valid kernels each -/
theorem C79_gen_kernels (q : ℕ) : (genKernels q).length = 4 ∧ ∀ ks ∈ genKernels q, ks.length = q ∧ ∀ k ∈ ks, k.Valid := by
  have hlen : ∀ n, (logspace01 n).length = n := fun n => vmk_length _ _
  refine ⟨by simp [genKernels, benchKernFuncs], fun ks hks => ?_⟩
  unfold genKernels at hks
  simp only [List.mem_append, List.mem_map, List.mem_singleton] at hks
  rcases hks with ⟨f, hf, rfl⟩ | rfl
  · exact ⟨by rw [List.length_map, hlen], genKernels_valid_aux (logspace01_pos q) hf⟩
  · have hv : ∀ k ∈ (logspace01 (max (q / 3) 1)).flatMap fun gamma => benchKernFuncs.map fun kfunc => kfunc gamma, k.Valid := by
      intro k hk
      obtain ⟨g, hg, hk⟩ := List.mem_flatMap.1 hk
      obtain ⟨f, hf, rfl⟩ := List.mem_map.1 hk
      exact genKernels_valid_aux (l := [g]) (by simpa using logspace01_pos _ g hg) hf _ (by simp)
    split_ifs with h
    · exact ⟨by rw [List.length_take]; omega, fun k hk => hv k (List.mem_of_mem_take hk)⟩
    · refine ⟨by rw [List.length_append, List.length_replicate]; omega, fun k hk => ?_⟩
      rcases List.mem_append.1 hk with hk | hk
      · exact hv k hk
      · rw [(List.mem_replicate.1 hk).2]; simp [Kern.Valid]

theorem logspace01_scales (q : ℕ) : Scales (logspace01 q) q := by
  have hg : ∀ i < q, (logspace01 q).getD i 0 = (10 : ℝ) ^ ((i : ℝ) / ((q - 1 : ℕ) : ℝ)) := fun i hi => by unfold logspace01; exact vmk_getD_lt hi
  refine ⟨vmk_length _ _, fun h => by rw [hg 0 h]; simp, fun h => ?_, (10 : ℝ) ^ (1 / ((q - 1 : ℕ) : ℝ)), fun i hi => ?_⟩
  · rw [hg _ (by omega), div_self (by have : q - 1 ≠ 0 := by omega
                                      exact_mod_cast this), Real.rpow_one]
  · rw [hg _ hi, hg _ (by omega), ← Real.rpow_add (by norm_num)]
    congr 1
    push_cast
    ring

/-- C79, scales: the first three lists hold the radial basis function kernels, the standard periodic kernels of period-scale 1 and the Matérn kernels of `q` scales
spaced evenly, by ratio, from 1 to 10. The fourth goes through `max (q / 3) 1` such scales, taking one kernel of each kind for each, and is filled up with radial basis
function kernels of scale 1. -/
theorem C79_scales (q : ℕ) : ∃ γ δ mix, Scales γ q ∧ Scales δ (max (q / 3) 1) ∧
    genKernels q = [γ.map fun g => .rbf g none, γ.map fun g => .stdPeriodic 1 g none, γ.map fun g => .matern32 g none, mix] ∧ mix.length = q ∧
      ∀ k < q, mix[k]? = some (if 3 * max (q / 3) 1 ≤ k then Kern.rbf 1 none
        else if k % 3 = 0 then .rbf (δ.getD (k / 3) 0) none else if k % 3 = 1 then .stdPeriodic 1 (δ.getD (k / 3) 0) none else .matern32 (δ.getD (k / 3) 0) none) := by
  have hflat : ∀ (l : List ℝ) (k : ℕ), (l.flatMap fun g => benchKernFuncs.map fun f => f g)[k]? = if 3 * l.length ≤ k then none
      else some (if k % 3 = 0 then Kern.rbf (l.getD (k / 3) 0) none else if k % 3 = 1 then .stdPeriodic 1 (l.getD (k / 3) 0) none
        else .matern32 (l.getD (k / 3) 0) none) := by
    intro l
    induction l with
    | nil => intro k; simp
    | cons g l ih =>
      intro k
      rw [List.flatMap_cons]
      rcases k with _ | _ | _ | k
      · simp [benchKernFuncs]
      · simp [benchKernFuncs]
        omega
      · simp [benchKernFuncs]
        omega
      · rw [List.getElem?_append_right (by simp [benchKernFuncs])]
        have : k + 1 + 1 + 1 - (benchKernFuncs.map fun f => f g).length = k := by simp [benchKernFuncs]
        rw [this, ih]
        have h1 : (k + 1 + 1 + 1) / 3 = k / 3 + 1 := by omega
        have h2 : (k + 1 + 1 + 1) % 3 = k % 3 := by omega
        rw [h1, h2, List.getD_cons_succ, List.length_cons]
        by_cases h : 3 * l.length ≤ k
        · rw [if_pos h, if_pos (by omega)]
        · rw [if_neg h, if_neg (show ¬ 3 * (l.length + 1) ≤ k + 1 + 1 + 1 by omega)]
  have hl : (logspace01 (max (q / 3) 1)).length = max (q / 3) 1 := vmk_length _ _
  have hfl : ∀ l : List ℝ, (l.flatMap fun g => benchKernFuncs.map fun f => f g).length = 3 * l.length := by
    intro l
    simp [List.length_flatMap, benchKernFuncs, mul_comm]
  refine ⟨logspace01 q, logspace01 (max (q / 3) 1), _, logspace01_scales q, logspace01_scales _, rfl, ?_, fun k hk => ?_⟩
  · exact ((C79_gen_kernels q).2 _ (by unfold genKernels; exact List.mem_append_right _ (List.mem_singleton.2 rfl))).1
  · simp only [hfl, hl]
    split_ifs with h1 h2 h3 h4 h5 h6 <;>
      simp [List.getElem?_take, List.getElem?_append, List.getElem?_replicate, hfl, hl, hflat, hk] <;> grind

/-- with five kernels: the second Matérn kernel has scale `10 ^ (1/4)`, the last one scale 10, and the mixture is one kernel of each kind of scale 1 and two more
radial basis function kernels of scale 1 -/
example : ∃ γ mix, Scales γ 5 ∧ genKernels 5 = [γ.map fun g => .rbf g none, γ.map fun g => .stdPeriodic 1 g none, γ.map fun g => .matern32 g none, mix] ∧
    γ.getD 4 0 = 10 ∧ mix[1]? = some (.stdPeriodic 1 1 none) ∧ mix[4]? = some (.rbf 1 none) := by
  obtain ⟨γ, δ, mix, h1, h2, h3, h4, h5⟩ := C79_scales 5
  refine ⟨γ, mix, h1, h3, h1.2.2.1 (by norm_num), ?_, ?_⟩
  · rw [h5 1 (by norm_num)]
    simpa using h2.2.1 (by norm_num)
  · rw [h5 4 (by norm_num)]
    norm_num

end Verif
