import Verif.Spec.TestHelpers
import Verif.Proofs.Base

import Mathlib.Data.Nat.Digits.Lemmas
import Mathlib.Data.List.GetD
import Mathlib.Tactic.IntervalCases
import Mathlib.Tactic.NormNum

/-! C123: random tests can be repeated, and the helpers of the tests accept what they should. -/

namespace Verif

theorem digitChar_value {d : ℕ} (h : d < 10) : (Nat.digitChar d).isDigit = true ∧ (Nat.digitChar d).toNat - 48 = d := by
  interval_cases d <;> decide

theorem foldl_digits : ∀ (l : List ℕ), (∀ d ∈ l, d < 10) →
    (l.reverse.map Nat.digitChar).foldl (fun n c => n * 10 + (c.toNat - 48)) 0 = Nat.ofDigits 10 l
  | [], _ => rfl
  | d :: l, h => by
    rw [List.reverse_cons, List.map_append, List.foldl_append, foldl_digits l fun x hx => h x (List.mem_cons_of_mem _ hx), Nat.ofDigits_cons]
    simp only [List.map_cons, List.map_nil, List.foldl_cons, List.foldl_nil, (digitChar_value (h d (by simp))).2]
    ring

theorem decimal_round (n : ℕ) : decimalValue (decimalText n) = .ok n := by
  unfold decimalText
  by_cases hn : n = 0
  · subst hn
    rfl
  · rw [if_neg hn]
    have hd : ∀ d ∈ Nat.digits 10 n, d < 10 := fun d hd => Nat.digits_lt_base (by norm_num) hd
    unfold decimalValue
    rw [if_neg, foldl_digits _ hd, Nat.ofDigits_digits]
    rintro (h | h)
    · have := congrArg List.length h
      simp only [List.length_map, List.length_reverse, List.length_nil] at this
      exact hn (Nat.digits_eq_nil_iff_eq_zero.1 (List.length_eq_zero_iff.1 this))
    · refine h fun c hc => ?_
      obtain ⟨d, hd', rfl⟩ := List.mem_map.1 hc
      exact (digitChar_value (hd d (List.mem_reverse.1 hd'))).1

theorem randomSeed_lt {env : Option (List Char)} {clock : ℤ} {seed : ℕ} (h : randomSeed env clock = .ok seed) : seed < 2 ^ 32 := by
  cases env with
  | none =>
    have h : (clock % 2 ^ 32).toNat = seed := Except.ok.inj h
    have h1 := Int.emod_lt_of_pos clock (show (0 : ℤ) < 2 ^ 32 by norm_num)
    have h2 := Int.emod_nonneg clock (show (2 ^ 32 : ℤ) ≠ 0 by norm_num)
    omega
  | some s =>
    unfold randomSeed at h
    simp only at h
    cases hv : decimalValue s with
    | error e => rw [hv] at h; cases h
    | ok n =>
      rw [hv] at h
      have h : n % 2 ^ 32 = seed := Except.ok.inj h
      rw [← h]
      exact Nat.mod_lt _ (by norm_num)

theorem randomSeed_repeat {env : Option (List Char)} {clock : ℤ} {seed : ℕ} (h : randomSeed env clock = .ok seed) (clock' : ℤ) :
    randomSeed (some (decimalText seed)) clock' = .ok seed := by
  unfold randomSeed
  simp only
  rw [decimal_round]
  show Except.ok (seed % 2 ^ 32) = _
  rw [Nat.mod_eq_of_lt (randomSeed_lt h)]

theorem runTest_of_seed {S A : Type} {seedAll : ℕ → S} {env : Option (List Char)} {clock : ℤ} {test : S → A × S} {s : S} {seed : ℕ}
    (h : randomSeed env clock = .ok seed) : (runTest seedAll env clock test s).1 = .ok (seedLine seed, (test (seedAll seed)).1) := by
  unfold runTest
  rw [h]

/-- C123: a test prints one line, `Random test using SEED=` and a text; running it again at any time with `SEED` set to this text, alone or after whatever
left the generators in another state, prints the same line and has the same outcome. This does not fail, unless the variable `SEED` was set to something that is no
number. -/
theorem C123_repeat {S A : Type} (seedAll : ℕ → S) (env : Option (List Char)) (clock : ℤ) (test : S → A × S) (s : S) :
    (env = none ∨ (∃ t, env = some t ∧ t ≠ [] ∧ ∀ c ∈ t, c.isDigit) → ∃ line out, (runTest seedAll env clock test s).1 = .ok (line, out)) ∧
    ∀ line out, (runTest seedAll env clock test s).1 = .ok (line, out) → ∃ text, line = "Random test using SEED=".toList ++ text ∧
      ∀ (clock' : ℤ) (s' : S), (runTest seedAll (some text) clock' test s').1 = .ok (line, out) := by
  constructor
  · intro h
    unfold runTest
    rcases h with rfl | ⟨t, rfl, h1, h2⟩
    · exact ⟨_, _, rfl⟩
    · have : decimalValue t = .ok (t.foldl (fun n c => n * 10 + (c.toNat - 48)) 0) := by
        unfold decimalValue
        rw [if_neg]
        rintro (h | h)
        · exact h1 h
        · exact h h2
      simp only [randomSeed, this]
      exact ⟨_, _, rfl⟩
  · intro line out h
    unfold runTest at h
    cases hs : randomSeed env clock with
    | error e => rw [hs] at h; cases h
    | ok seed =>
      rw [hs] at h
      simp only [Except.ok.injEq, Prod.mk.injEq] at h
      obtain ⟨rfl, rfl⟩ := h
      refine ⟨decimalText seed, rfl, fun clock' s' => ?_⟩
      unfold runTest
      rw [randomSeed_repeat hs clock']

/-- C123: the outcome of a test does not depend on the tests that ran before it, nor (with `SEED` set) on the time. -/
theorem C123_suite {S A : Type} (seedAll : ℕ → S) (env : Option (List Char)) (tests : List ((S → A × S) × ℤ)) (s s' : S) :
    runSuite seedAll env tests s = tests.map (fun p => (runTest seedAll env p.2 p.1 s').1) ∧
    (env ≠ none → ∀ clock : ℤ, runSuite seedAll env tests s = tests.map (fun p => (runTest seedAll env clock p.1 s').1)) := by
  have free : ∀ (test : S → A × S) (clock : ℤ) (s s' : S), (runTest seedAll env clock test s).1 = (runTest seedAll env clock test s').1 := by
    intro test clock s s'
    unfold runTest
    cases randomSeed env clock <;> rfl
  have first : ∀ (tests : List ((S → A × S) × ℤ)) (s : S), runSuite seedAll env tests s = tests.map (fun p => (runTest seedAll env p.2 p.1 s').1) := by
    intro tests
    induction tests with
    | nil => intro s; rfl
    | cons p l ih =>
      intro s
      obtain ⟨test, clock⟩ := p
      show (runTest seedAll env clock test s).1 :: runSuite seedAll env l _ = _
      rw [ih, free test clock s s']
      rfl
  refine ⟨first tests s, fun he clock => ?_⟩
  rw [first tests s]
  refine List.map_congr_left fun p _ => ?_
  unfold runTest
  cases env with
  | none => exact absurd rfl he
  | some t => rfl

/-! ### check_np_lists -/

theorem closeFloats_iff (atol rtol : ℝ) (x y : Option ℝ) : closeFloats atol rtol x y = true ↔ CloseTo atol rtol x y := by
  unfold CloseTo
  cases x <;> cases y <;> simp [closeFloats]

theorem assertAllclose_cases (atol rtol : ℝ) (x y : NDArr (Option ℝ)) : assertAllclose atol rtol x y = .ok () ∨ assertAllclose atol rtol x y = .error .assertionError := by
  unfold assertAllclose
  split_ifs <;> simp

theorem assertAllclose_iff {atol rtol : ℝ} {x y : NDArr (Option ℝ)} (hx : x.WF) (hy : y.WF) : assertAllclose atol rtol x y = .ok () ↔ ArraysClose atol rtol x y := by
  unfold assertAllclose ArraysClose
  by_cases h1 : x.shape = y.shape
  · have hl : x.data.length = y.data.length := by rw [hx, hy, h1]
    have hent : ∀ z : NDArr (Option ℝ), z.WF → ∀ k < z.data.length, entryOr z k = z.data.getD k none := by
      intro z hz k hk
      unfold entryOr
      split_ifs with h
      · have : z.data.length = 1 := by rw [hz, h]; rfl
        have : k = 0 := by omega
        rw [this]
      · rfl
    rw [if_pos h1]
    have hall : (List.zipWith (closeFloats atol rtol) x.data y.data).all id = true ↔ ∀ k < x.data.length, CloseTo atol rtol (x.data.getD k none) (y.data.getD k none) := by
      rw [List.all_eq_true]
      constructor
      · intro h k hk
        rw [← closeFloats_iff]
        refine h _ ?_
        rw [List.mem_iff_getElem]
        refine ⟨k, by rw [List.length_zipWith]; omega, ?_⟩
        rw [List.getElem_zipWith]
        rw [List.getD_eq_getElem _ _ hk, List.getD_eq_getElem _ _ (hl ▸ hk)]
        rfl
      · intro h b hb
        obtain ⟨k, hk, rfl⟩ := List.mem_iff_getElem.1 hb
        rw [List.length_zipWith] at hk
        have hk1 : k < x.data.length := by omega
        have hk2 : k < y.data.length := by omega
        rw [List.getElem_zipWith]
        have := (closeFloats_iff atol rtol _ _).2 (h k hk1)
        simpa [List.getD_eq_getElem?_getD, hk1, hk2] using this
    have hn : (if x.shape = [] then y.data.length else x.data.length) = x.data.length := by split_ifs <;> omega
    rw [hn]
    constructor
    · intro h
      refine ⟨.inl h1, fun k hk => ?_⟩
      rw [hent x hx k hk, hent y hy k (hl ▸ hk)]
      by_cases ha : (List.zipWith (closeFloats atol rtol) x.data y.data).all id = true
      · exact hall.1 ha k hk
      · rw [if_neg ha] at h; cases h
    · rintro ⟨-, h⟩
      rw [if_pos]
      refine hall.2 fun k hk => ?_
      have := h k hk
      rwa [hent x hx k hk, hent y hy k (hl ▸ hk)] at this
  · rw [if_neg h1]
    by_cases h2 : y.shape = []
    · have hxs : x.shape ≠ [] := fun h => h1 (h.trans h2.symm)
      rw [if_pos h2, if_neg hxs]
      have hall : (x.data.map fun a => closeFloats atol rtol a (y.data.getD 0 none)).all id = true ↔ ∀ k < x.data.length, CloseTo atol rtol (x.data.getD k none) (y.data.getD 0 none) := by
        rw [List.all_eq_true]
        constructor
        · intro h k hk
          rw [← closeFloats_iff]
          refine h _ (List.mem_map.2 ⟨x.data[k], List.getElem_mem hk, ?_⟩)
          rw [List.getD_eq_getElem _ _ hk]
          rfl
        · intro h b hb
          obtain ⟨a, ha, rfl⟩ := List.mem_map.1 hb
          obtain ⟨k, hk, rfl⟩ := List.mem_iff_getElem.1 ha
          have := (closeFloats_iff atol rtol _ _).2 (h k hk)
          simpa [List.getD_eq_getElem?_getD, hk] using this
      have e1 : ∀ k, entryOr x k = x.data.getD k none := fun k => if_neg hxs
      have e2 : ∀ k, entryOr y k = y.data.getD 0 none := fun k => if_pos h2
      simp only [e1, e2]
      constructor
      · intro h
        refine ⟨.inr (.inr h2), ?_⟩
        by_cases ha : (x.data.map fun a => closeFloats atol rtol a (y.data.getD 0 none)).all id = true
        · exact hall.1 ha
        · rw [if_neg ha] at h; cases h
      · rintro ⟨-, h⟩
        rw [if_pos (hall.2 h)]
    · rw [if_neg h2]
      by_cases h3 : x.shape = []
      · rw [if_pos h3, if_pos h3]
        have hall : (y.data.map fun b => closeFloats atol rtol (x.data.getD 0 none) b).all id = true ↔ ∀ k < y.data.length, CloseTo atol rtol (x.data.getD 0 none) (y.data.getD k none) := by
          rw [List.all_eq_true]
          constructor
          · intro h k hk
            rw [← closeFloats_iff]
            refine h _ (List.mem_map.2 ⟨y.data[k], List.getElem_mem hk, ?_⟩)
            rw [List.getD_eq_getElem _ _ hk]
            rfl
          · intro h b hb
            obtain ⟨a, ha, rfl⟩ := List.mem_map.1 hb
            obtain ⟨k, hk, rfl⟩ := List.mem_iff_getElem.1 ha
            have := (closeFloats_iff atol rtol _ _).2 (h k hk)
            simpa [List.getD_eq_getElem?_getD, hk] using this
        have e1 : ∀ k, entryOr x k = x.data.getD 0 none := fun k => if_pos h3
        have e2 : ∀ k, entryOr y k = y.data.getD k none := fun k => if_neg h2
        simp only [e1, e2]
        constructor
        · intro h
          refine ⟨.inr (.inl h3), ?_⟩
          by_cases ha : (y.data.map fun b => closeFloats atol rtol (x.data.getD 0 none) b).all id = true
          · exact hall.1 ha
          · rw [if_neg ha] at h; cases h
        · rintro ⟨-, h⟩
          rw [if_pos (hall.2 h)]
      · rw [if_neg h3]
        constructor
        · intro h; cases h
        · rintro ⟨h | h | h, -⟩
          · exact absurd h h1
          · exact absurd h h3
          · exact absurd h h2

/-- C123: `check_np_lists` accepts two lists exactly if they have as many arrays and each array is close to that at the same place: of the same shape (or one of them a
scalar) with every entry within the tolerances of the second list. Otherwise it raises AssertionError. -/
theorem C123_check (a b : List (NDArr (Option ℝ))) (ha : ∀ x ∈ a, x.WF) (hb : ∀ y ∈ b, y.WF) (atol rtol : ℝ) :
    (checkNpLists a b atol rtol = .ok () ↔ a.length = b.length ∧ ∀ p ∈ a.zip b, ArraysClose atol rtol p.1 p.2) ∧
    (checkNpLists a b atol rtol ≠ .ok () → checkNpLists a b atol rtol = .error .assertionError) := by
  have pairs : ∀ l : List (NDArr (Option ℝ) × NDArr (Option ℝ)), (checkPairs atol rtol l = .ok () ∧ ∀ p ∈ l, assertAllclose atol rtol p.1 p.2 = .ok ()) ∨
      (checkPairs atol rtol l = .error .assertionError ∧ ∃ p ∈ l, assertAllclose atol rtol p.1 p.2 = .error .assertionError) := by
    intro l
    induction l with
    | nil => exact .inl ⟨rfl, fun p hp => by cases hp⟩
    | cons p l ih =>
      rcases assertAllclose_cases atol rtol p.1 p.2 with h | h
      · have hc : checkPairs atol rtol (p :: l) = checkPairs atol rtol l := by
          show (do assertAllclose atol rtol p.1 p.2; checkPairs atol rtol l) = _
          rw [h]; rfl
        rw [hc]
        rcases ih with ⟨i1, i2⟩ | ⟨i1, q, i2, i3⟩
        · exact .inl ⟨i1, fun q hq => by rcases List.mem_cons.1 hq with rfl | hq; exacts [h, i2 q hq]⟩
        · exact .inr ⟨i1, q, List.mem_cons_of_mem _ i2, i3⟩
      · refine .inr ⟨?_, p, by simp, h⟩
        show (do assertAllclose atol rtol p.1 p.2; checkPairs atol rtol l) = _
        rw [h]; rfl
  unfold checkNpLists
  by_cases hl : a.length = b.length
  · rw [if_neg (by simpa using hl)]
    have wf : ∀ p ∈ a.zip b, p.1.WF ∧ p.2.WF := fun p hp => ⟨ha _ (List.of_mem_zip (b := p.2) (a := p.1) hp).1, hb _ (List.of_mem_zip (b := p.2) (a := p.1) hp).2⟩
    rcases pairs (a.zip b) with ⟨h1, h2⟩ | ⟨h1, p, h2, h3⟩
    · rw [h1]
      exact ⟨⟨fun _ => ⟨hl, fun p hp => (assertAllclose_iff (wf p hp).1 (wf p hp).2).1 (h2 p hp)⟩, fun _ => rfl⟩, fun h => absurd rfl h⟩
    · rw [h1]
      refine ⟨Iff.intro (fun h => nomatch h) fun h => ?_, fun _ => rfl⟩
      have := (assertAllclose_iff (wf p h2).1 (wf p h2).2).2 (h.2 p h2)
      rw [h3] at this
      cases this
  · rw [if_pos hl]
    exact ⟨Iff.intro (fun h => nomatch h) fun h => absurd h.1 hl, fun _ => rfl⟩

/-- C123: equal lists are accepted. -/
theorem C123_check_equal (a : List (NDArr (Option ℝ))) (ha : ∀ x ∈ a, x.WF) (atol rtol : ℝ) (h1 : 0 ≤ atol) (h2 : 0 ≤ rtol) : checkNpLists a a atol rtol = .ok () := by
  refine ((C123_check a a ha ha atol rtol).1).2 ⟨rfl, fun p hp => ?_⟩
  have : p.1 = p.2 := by
    obtain ⟨i, hi, rfl⟩ := List.mem_iff_getElem.1 hp
    rw [List.getElem_zip]
  rw [← this]
  refine ⟨.inl rfl, fun k _ => ?_⟩
  unfold CloseTo
  cases entryOr p.1 k with
  | none => exact .inl ⟨rfl, rfl⟩
  | some x => exact .inr ⟨x, x, rfl, rfl, by rw [sub_self, abs_zero]; positivity⟩

/-- C123: the order of the two lists matters: the tolerance is relative to the second. -/
example : checkNpLists [⟨[1], [some 10]⟩] [⟨[1], [some 11]⟩] 0 (1 / 11) = .ok () ∧ checkNpLists [⟨[1], [some 11]⟩] [⟨[1], [some 10]⟩] 0 (1 / 11) = .error .assertionError := by
  constructor
  · simp [checkNpLists, checkPairs, assertAllclose, closeFloats, Bind.bind, Except.bind]
    norm_num
  · simp [checkNpLists, checkPairs, assertAllclose, closeFloats, Bind.bind, Except.bind]
    norm_num

/-! ### vectorize_inputs -/

/-- C123: `vectorize_inputs(f)` of an array with `p > 0` columns calls `f` with `p` arguments: argument `j` is column `j`, as an array with one column. -/
theorem C123_vectorize {A : Type} (f : List (Arr2 ℝ) → Except PyErr A) (args : Arr2 ℝ) (h : args.cols ≠ 0) :
    ∃ cs : List (Arr2 ℝ), vectorizeInputs f args = f cs ∧ cs.length = args.cols ∧ ∀ j < args.cols, (cs.getD j ⟨0, 0, []⟩).rows = args.rows ∧
      (cs.getD j ⟨0, 0, []⟩).cols = 1 ∧ (cs.getD j ⟨0, 0, []⟩).WF ∧ ∀ i < args.rows, (cs.getD j ⟨0, 0, []⟩).get i 0 = args.get i j := by
  refine ⟨vmk args.cols fun j => ⟨args.rows, 1, vmk args.rows fun i => args.data.getD (i * args.cols + j) 0⟩, ?_, vmk_length _ _, fun j hj => ?_⟩
  · unfold vectorizeInputs columnsOf
    rw [if_neg h]
    rfl
  · rw [vmk_getD_lt hj]
    refine ⟨rfl, rfl, ?_, fun i hi => ?_⟩
    · show (vmk _ _).length = _
      rw [vmk_length, mul_one]
    · show (vmk args.rows fun i => args.data.getD (i * args.cols + j) 0).getD (i * 1 + 0) 0 = _
      rw [mul_one, add_zero, vmk_getD_lt hi]
      rfl

/-- C123: without columns it raises, and `f` is not called. -/
theorem C123_vectorize_empty {A : Type} (f : List (Arr2 ℝ) → Except PyErr A) (args : Arr2 ℝ) (h : args.cols = 0) : vectorizeInputs f args = .error .zeroDivisionError := by
  unfold vectorizeInputs columnsOf
  rw [if_pos h]
  rfl

/-- two columns -/
example : vectorizeInputs (fun cs => .ok (cs.map fun c => c.get 1 0)) ⟨2, 2, [1, 2, 3, 4]⟩ = .ok [3, 4] := by
  simp [vectorizeInputs, columnsOf, vmk, Arr2.get, List.range_succ, Bind.bind, Except.bind]

/-! ### error_context -/

/-- C123: in `with error_context(s)` a body that succeeds does so, and all exceptions but AssertionErrors leave it unchanged. -/
theorem C123_context {A : Type} (s : List Char) (body : Except PyExc A) :
    (∀ a, errorContext s body = .ok a ↔ body = .ok a) ∧ ∀ e : PyExc, body = .error e → e.kind ≠ .assertionError → errorContext s body = .error e := by
  refine ⟨fun a => ?_, fun e he hk => by rw [he]; exact if_neg hk⟩
  cases body with
  | ok b => exact Iff.rfl
  | error e =>
    refine ⟨fun h => ?_, fun h => by cases h⟩
    exfalso
    obtain ⟨k, args⟩ := e
    unfold errorContext at h
    simp only at h
    by_cases hk : k = .assertionError
    · rw [if_pos hk] at h
      rcases args with _ | ⟨_ | _, rest⟩ <;> cases h
    · rw [if_neg hk] at h
      cases h

/-- C123, the part that holds: an AssertionError with a text leaves any number of contexts as an AssertionError with the lines of the contexts added, the innermost
first, and its other arguments unchanged. Missing: AssertionErrors without a text (`C123_bare`). -/
theorem C123_contexts_partial {A : Type} (ss : List (List Char)) (m : List Char) (rest : List ExcArg) :
    errorContexts (A := A) ss (.error ⟨.assertionError, .str m :: rest⟩) = .error ⟨.assertionError, .str (m ++ (ss.map fun s => '\n' :: s).flatten) :: rest⟩ := by
  induction ss generalizing m with
  | nil => simp [errorContexts]
  | cons s ss ih =>
    show errorContexts ss (errorContext s (.error ⟨.assertionError, .str m :: rest⟩)) = _
    have : errorContext (A := A) s (.error ⟨.assertionError, .str m :: rest⟩) = .error ⟨.assertionError, .str (m ++ '\n' :: s) :: rest⟩ := rfl
    rw [this, ih]
    simp

/-- C123 is false of the code: a plain `assert` without a message inside `with error_context(s)` is reported as IndexError, not as a failed assertion. -/
theorem C123_bare {A : Type} (s : List Char) : ∃ args, errorContext (A := A) s (.error ⟨.assertionError, []⟩) = .error ⟨.indexError, args⟩ := ⟨_, rfl⟩

/-! ### examples -/

/-- a test that draws a number: without `SEED` it prints the seed, with it the test is repeated -/
example : (runTest (fun n => n) none 60129543378 (fun g : ℕ => (g % 10, g + 1)) 5).1 = .ok ("Random test using SEED=1234".toList, 4) ∧
    (runTest (fun n => n) (some "1234".toList) 7 (fun g : ℕ => (g % 10, g + 1)) 0).1 = .ok ("Random test using SEED=1234".toList, 4) := by
  have line : seedLine 1234 = "Random test using SEED=1234".toList := by
    have h : Nat.digits 10 1234 = [4, 3, 2, 1] := by norm_num
    unfold seedLine decimalText
    rw [h]
    rfl
  have e1 : randomSeed none 60129543378 = .ok 1234 := by decide +kernel
  have e2 : randomSeed (some "1234".toList) 7 = .ok 1234 := by decide +kernel
  rw [runTest_of_seed e1, runTest_of_seed e2, line]
  exact ⟨rfl, rfl⟩

/-- two contexts -/
example : errorContexts (A := Unit) ["inner".toList, "outer".toList] (.error ⟨.assertionError, [.str "failed".toList]⟩) =
    .error ⟨.assertionError, [.str "failed\ninner\nouter".toList]⟩ := by
  rw [C123_contexts_partial]
  simp

end Verif
