import Verif.Proofs.BenchLmc
import Verif.Props.Bench
import Verif.Props.Optimizer
import Verif.Props.Reached

/-! C112: repeated runs of the model in a benchmark. -/

namespace Verif

theorem mapM_id_some : ∀ x : List ℝ, (x.map some).mapM id = some x
  | [] => rfl
  | a :: x => by simp [List.mapM_cons, mapM_id_some x]

theorem mapM_id_none {l : List (Option ℝ)} (h : none ∈ l) : l.mapM id = none := by
  induction l with
  | nil => cases h
  | cons a l ih =>
    rw [List.mapM_cons]
    cases a with
    | none => rfl
    | some a => rw [ih (by simpa using h)]; rfl

theorem benchStat_reports (l : List (Option ℝ)) : Reports l (benchStat l) := by
  constructor
  · rintro x rfl hx
    have hn : (0 : ℝ) < x.length := by exact_mod_cast List.length_pos_iff.2 hx
    unfold benchStat npStd
    rw [npMeanFloats_some, mapM_id_some]
    simp only [npMeanFloat, if_neg hx, Option.bind_some, List.map_eq_nil_iff, Option.map_some, floatDiv, List.length_map, (Real.sqrt_pos.2 hn).ne', ↓reduceIte]
    simp [runMean, runSpread]
  · intro h
    unfold benchStat
    rw [npMeanFloats_none h]
    congr 1
    unfold npStd
    rcases h with rfl | h
    · rfl
    · rw [mapM_id_none h]
      rfl

theorem benchResult_eq (sv : Solvers) (c : BenchCall) (ts : List Trial) (w : World) (h : c.returnLmc = none ∨ ts ≠ []) :
    ∃ l : List (ℝ × Option ℝ × Option ℝ) → Option ℕ, (∀ ps, l ps = none ↔ c.returnLmc = none) ∧ benchResult sv c ts w = (mapExcept (trialScore sv c) ts).map fun ps =>
      ([benchStat (ps.map fun p => some p.1), benchStat (ps.map fun p => p.2.1), benchStat (ps.map fun p => p.2.2)], l ps) := by
  have hl := benchLoop_scores sv c ts w
  unfold benchResult benchRunlmc
  rw [py_bind]
  rcases hx : benchLoop true sv c ts w with ⟨r, v⟩
  rw [hx] at hl
  rw [← hl]
  cases r with
  | error e => exact ⟨fun _ => c.returnLmc.map fun _ => 0, by simp, rfl⟩
  | ok ps =>
    simp only
    cases hr : c.returnLmc with
    | none =>
      refine ⟨fun _ => none, by simp, ?_⟩
      simp only [Except.map, List.map_map]
      rfl
    | some b =>
      cases hg : ps.getLast? with
      | none =>
        rcases h with h | h
        · rw [hr] at h; cases h
        · exfalso
          have : ps = [] := by simpa using hg
          subst this
          cases ts with
          | nil => exact h rfl
          | cons t ts =>
            rw [show mapExcept (trialScore sv c) (t :: ts) = (do let p ← trialScore sv c t; let ps ← mapExcept (trialScore sv c) ts; return p :: ps) from rfl] at hl
            cases h1 : trialScore sv c t with
            | error e => rw [h1] at hl; cases hl
            | ok p =>
              rw [h1] at hl
              cases h2 : mapExcept (trialScore sv c) ts with
              | error e => rw [h2] at hl; cases hl
              | ok p => rw [h2] at hl; cases hl
      | some p =>
        refine ⟨fun _ => some p.2, by simp, ?_⟩
        simp only [Except.map, List.map_map]
        rfl

theorem benchResult_one (sv : Solvers) (c : BenchCall) (t : Trial) (w : World) :
    (benchResult sv c [t] w).map (fun r => r.1.map Prod.fst) = (trialScore sv c t).map fun p => [some p.1, p.2.1, p.2.2] := by
  obtain ⟨l, -, h⟩ := benchResult_eq sv c [t] w (.inr (by simp))
  rw [h, show mapExcept (trialScore sv c) [t] = (do let p ← trialScore sv c t; let ps ← mapExcept (trialScore sv c) []; return p :: ps) from rfl]
  cases trialScore sv c t with
  | error e => rfl
  | ok p =>
    obtain ⟨p1, p2, p3⟩ := p
    show Except.ok [_, _, _] = Except.ok _
    congr 1
    have one : ∀ o : Option ℝ, (benchStat [o]).1 = o := by
      intro o
      cases o with
      | none => exact congrArg Prod.fst ((benchStat_reports [none]).2 (.inr (by simp)))
      | some v =>
        have := (benchStat_reports [some v]).1 [v] rfl (by simp)
        rw [this]
        simp [runMean]
    simp only [List.map_cons, List.map_nil]
    rw [one, one, one]

/-- C112: every run of `bench_runlmc` has numbers of its own, which depend on that run only (not on the runs before it, nor on anything else the program did), and the call reports their
means and spreads; the exception of the first run that raises one is raised.
Missing: the second number of each pair is documented as the standard error of the mean (see `standardError`); it is smaller (`C112_spread`, `C112_violated`). -/
theorem C112_runs_partial (sv : Solvers) (c : BenchCall) : ∃ f : Trial → Except PyErr (ℝ × Option ℝ × Option ℝ),
    (∀ t w, (benchResult sv c [t] w).map (fun r => r.1.map Prod.fst) = (f t).map fun p => [some p.1, p.2.1, p.2.2]) ∧
    ∀ ts w, (c.returnLmc = none ∨ ts ≠ []) →
      (∀ ps, List.Forall₂ (fun t p => f t = .ok p) ts ps → ∃ a b d l, benchResult sv c ts w = .ok ([a, b, d], l) ∧ (l = none ↔ c.returnLmc = none) ∧
        Reports (ps.map fun p => some p.1) a ∧ Reports (ps.map fun p => p.2.1) b ∧ Reports (ps.map fun p => p.2.2) d) ∧
      ∀ pre t post e, ts = pre ++ t :: post → (∀ s ∈ pre, ∃ p, f s = .ok p) → f t = .error e → benchResult sv c ts w = .error e := by
  refine ⟨trialScore sv c, fun t w => ?_, fun ts w h => ⟨fun ps hps => ?_, fun pre t post e hts hpre ht => ?_⟩⟩
  · exact benchResult_one sv c t w
  · obtain ⟨l, h1, h2⟩ := benchResult_eq sv c ts w h
    have : mapExcept (trialScore sv c) ts = .ok ps := by
      clear h h1 h2
      induction hps with
      | nil => rfl
      | cons a b ih =>
        rw [mapExcept, a, ih]
        rfl
    rw [h2, this]
    exact ⟨_, _, _, _, rfl, h1 _, benchStat_reports _, benchStat_reports _, benchStat_reports _⟩
  · obtain ⟨l, h1, h2⟩ := benchResult_eq sv c ts w h
    have : mapExcept (trialScore sv c) ts = .error e := by
      clear h h1 h2
      subst hts
      induction pre with
      | nil =>
        rw [List.nil_append, mapExcept, ht]
        rfl
      | cons s pre ih =>
        obtain ⟨p, hp⟩ := hpre s (by simp)
        rw [List.cons_append, mapExcept, hp, ih fun s hs => hpre s (by simp [hs])]
        rfl
    rw [h2, this]
    rfl

/-- C112: a `return_lmc` argument, even `False`, makes the call return the last model too: that of a call with the last run only, made after the other runs. -/
theorem C112_last (sv : Solvers) (c : BenchCall) (ts : List Trial) (t : Trial) (w : World) (r : Summary × Option ℕ) (h : benchResult sv c (ts ++ [t]) w = .ok r) :
    ∃ s, benchResult sv c [t] (benchRunlmc true sv { c with returnLmc := none } ts w).2 = .ok (s, r.2) := by
  have app : ∀ (ts : List Trial) (w : World) (ps : List ((ℝ × Option ℝ × Option ℝ) × ℕ)), (benchLoop true sv c (ts ++ [t]) w).1 = .ok ps →
      ∃ p, ps.getLast? = some p ∧ (benchLoop true sv c [t] (benchLoop true sv c ts w).2).1 = .ok [p] := by
    intro ts
    induction ts with
    | nil =>
      intro w ps hp
      rw [List.nil_append, benchLoop, py_bind] at hp
      show ∃ p, _ ∧ (benchLoop true sv c [t] w).1 = _
      rw [benchLoop, py_bind]
      rcases hb : benchTrial true sv c t w with ⟨x, v⟩
      rw [hb] at hp
      cases x with
      | error e => cases hp
      | ok p =>
        cases hp
        exact ⟨p, rfl, rfl⟩
    | cons s ts ih =>
      intro w ps hp
      rw [List.cons_append, benchLoop, py_bind] at hp
      rw [show benchLoop true sv c (s :: ts) = (benchTrial true sv c s >>= fun p => benchLoop true sv c ts >>= fun ps => (pure (p :: ps) : PyM _)) from rfl, py_bind]
      rcases hb : benchTrial true sv c s w with ⟨x, v⟩
      rw [hb] at hp
      cases x with
      | error e => cases hp
      | ok q =>
        simp only at hp ⊢
        rw [py_bind] at hp ⊢
        rcases hx : benchLoop true sv c (ts ++ [t]) v with ⟨x, v'⟩
        rw [hx] at hp
        cases x with
        | error e => cases hp
        | ok qs =>
          cases hp
          obtain ⟨p, h1, h2⟩ := ih v qs (by rw [hx])
          refine ⟨p, by rw [List.getLast?_cons, h1]; rfl, ?_⟩
          rcases hl : benchLoop true sv c ts v with ⟨x, v''⟩
          rw [hl] at h2
          cases x <;> exact h2
  have world : (benchRunlmc true sv { c with returnLmc := none } ts w).2 = (benchLoop true sv c ts w).2 := by
    have : ∀ ts, benchLoop true sv { c with returnLmc := none } ts = benchLoop true sv c ts := by
      intro ts
      induction ts with
      | nil => rfl
      | cons t ts ih => rw [benchLoop, benchLoop, ih]; rfl
    unfold benchRunlmc
    rw [py_bind, this]
    rcases benchLoop true sv c ts w with ⟨x, v⟩
    cases x <;> rfl
  rw [world]
  unfold benchResult benchRunlmc at h ⊢
  rw [py_bind] at h ⊢
  rcases hx : benchLoop true sv c (ts ++ [t]) w with ⟨x, v⟩
  rw [hx] at h
  cases x with
  | error e => cases h
  | ok ps =>
    obtain ⟨p, h1, h2⟩ := app ts w ps (by rw [hx])
    rcases hy : benchLoop true sv c [t] (benchLoop true sv c ts w).2 with ⟨y, v'⟩
    rw [hy] at h2
    simp only at h2
    subst h2
    simp only at h ⊢
    cases hr : c.returnLmc with
    | none =>
      rw [hr] at h
      cases h
      exact ⟨_, rfl⟩
    | some b =>
      rw [hr, h1] at h
      cases h
      exact ⟨_, rfl⟩

/-- C112: without runs, every number is `nan`, unless the model was asked for: then there is an exception. -/
theorem C112_none (sv : Solvers) (c : BenchCall) (w : World) :
    (c.returnLmc = none → benchResult sv c [] w = .ok ([(none, none), (none, none), (none, none)], none)) ∧ (c.returnLmc ≠ none → benchResult sv c [] w = .error .runtimeError) := by
  have hs : benchStat [] = (none, none) := (benchStat_reports []).2 (.inl rfl)
  have key : benchResult sv c [] w = (match c.returnLmc with | none => .ok ([benchStat [], benchStat [], benchStat []], none) | some _ => .error .runtimeError) := by
    unfold benchResult benchRunlmc
    rw [py_bind]
    cases c.returnLmc <;> rfl
  rw [key]
  cases hr : c.returnLmc with
  | none => simp [hs]
  | some b => simp

/-! ### one run -/

theorem Kern.setActiveDims_aperiodic (k : Kern) (d : Option (List ℕ)) : (k.setActiveDims d).aperiodic ↔ k.aperiodic := by
  cases k <;> rfl

theorem Kern.setActiveDims_noIdentity (k : Kern) (d : Option (List ℕ)) : (k.setActiveDims d).noIdentity ↔ k.noIdentity := by
  cases k <;> rfl

/-- the functional kernel of a new model -/
theorem new_sound (rand : ℕ → ℕ → ℕ → ℝ) (a : FKArgs) (hk : a.lmcKernels ≠ none) (hr : a.lmcRanks ≠ none) (fk fk' : FK) (h : fkNew rand a = .ok fk) (P : ℕ)
    (h' : fk.setInputDim P = .ok fk') (hready : fk'.Ready P) (hsm : ∀ k ∈ given a.lmcKernels ++ given a.slfmKernels ++ given a.indepGp, k.aperiodic ∧ k.noIdentity) :
    fk'.Sound ∧ fk'.Tunable ∧ ∀ q < fk'.Q, (fk'.kernels.getD q (.identity none)).aperiodic := by
  obtain ⟨d, r⟩ := (C29_accepts_partial rand a hk hr).1 ⟨fk, h⟩
  have hfresh := (C29_contents rand a fk hk hr h).2.2.2.2
  obtain ⟨l1, l2⟩ := C90_constructed rand a hk hr fk fk' h P h'
  obtain ⟨D, hD, h2⟩ := (fkNew_given rand a hk hr).1 d r
  rw [h2] at h
  obtain ⟨fk'', g1, g2⟩ := setInputDim_fresh fk P hfresh
  rw [h'] at g1
  cases g1
  have hkern : fk.kernels = given a.lmcKernels ++ given a.slfmKernels ++ given a.indepGp := by cases h; rfl
  have hall : ∀ q < fk'.Q, (fk'.kernels.getD q (.identity none)).aperiodic ∧ (fk'.kernels.getD q (.identity none)).noIdentity := by
    intro q hq
    have hq' : q < fk.kernels.length := g2.klen ▸ hq
    rw [g2.kern q hq', Kern.setActiveDims_aperiodic, Kern.setActiveDims_noIdentity]
    exact hsm _ (hkern ▸ getD_mem_of_lt hq' _)
  refine ⟨⟨fun q hq => C36_kernels_psd fk' P hready q hq (.inl (hall q hq).1), fun k hk => ?_, fun q hq b hb => ?_, fun b hb => ?_⟩, ⟨l1, l2, fun q hq => .inl (hall q hq).1⟩,
    fun q hq => (hall q hq).1⟩
  · obtain ⟨q, hq, rfl⟩ := mem_getD hk (.identity none)
    exact (hall q hq).2
  · have hnn : ∀ v ∈ fk.coregDiags, ∀ x ∈ v, 0 ≤ x := by
      cases h
      intro v hv x hx
      simp only [List.mem_append, mem_vmk_iff, List.mem_map] at hv
      rcases hv with (⟨i, -, rfl⟩ | ⟨i, -, rfl⟩) | ⟨i, -, rfl⟩ <;> obtain ⟨j, -, rfl⟩ := mem_vmk_iff.1 hx
      · exact zero_le_one
      · exact le_rfl
      · split_ifs <;> norm_num
    rw [show fk'.coregDiags = fk.coregDiags by rw [g2.same]]
    by_cases hql : q < fk.coregDiags.length
    · by_cases hbl : b < (fk.coregDiags.getD q []).length
      · exact hnn _ (getD_mem_of_lt hql _) _ (getD_mem_of_lt hbl _)
      · rw [List.getD_eq_default _ _ (not_lt.1 hbl)]
    · rw [List.getD_eq_default _ _ (not_lt.1 hql)]
      simp
  · have hb' : b < fk.D := by rw [show fk'.D = fk.D by rw [g2.same]] at hb; exact hb
    rw [show fk'.noise = fk.noise by rw [g2.same]]
    cases h
    show 0 < (vmk D fun _ => (0.1 : ℝ)).getD b 0
    rw [vmk_getD_lt (by exact hb')]
    norm_num

theorem setUp_visits (i : ℕ) (fk : FK) (es : ℕ → Env) (a : LLGPArgs) : ∀ (xs : List (List ℝ)) (k : ℕ) (l : List (Except PyErr Answer)), (visits i fk es k xs).length = l.length → ∀ g,
    setUp i (some (a, g)) ((visits i fk es k xs).zip l) = some (a, (xs.getLast?.map fk.setOptimizerArray).or g)
  | [], _, _, _, g => by simp [visits, setUp]
  | x :: xs, k, [], h, _ => by simp [visits] at h
  | x :: xs, k, r :: l, h, g => by
    show setUp i (if i = i then (some (a, g)).map fun af => (af.1, some (fk.setOptimizerArray x)) else some (a, g)) ((visits i fk es (k + 1) xs).zip l) = _
    rw [if_pos rfl, Option.map_some]
    rw [setUp_visits i fk es a xs (k + 1) l (by simpa [visits] using h), List.getLast?_cons]
    cases xs.getLast? <;> rfl

theorem answers_length (u : Bool) (sv : Solvers) : ∀ (ops : List Op) (w : World), (history u sv ops w).1.length = ops.length
  | [], _ => rfl
  | op :: ops, w => congrArg (· + 1) (answers_length u sv ops _)

theorem run_measures (sv : Solvers) (hs : sv.Fit) (c : BenchCall) (t : Trial) (P : ℕ) (h : t.Documented c P) : ∃ (fk fk' : FK) (G : ℕ → List ℝ) (N : ℕ) (m : LLGP) (x : Except PyErr Predicted),
    fkNew t.rand (c.fkArgs t) = .ok fk ∧ fk.setInputDim P = .ok fk' ∧
    (∀ n, ∃ m', modelsAfter sv (.new (c.args fk) t.made :: .optimize 0 :: visits 0 fk' t.updates 0 (t.climb.asked fk'.optimizerArray G (n + 1))) 0 = some m' ∧ G n = m'.objectiveGrads) ∧
    IsLeast {n | MayStop c.opts G n} N ∧ (N : ℤ) ≤ max 1 c.opts.maxIt ∧
    Held sv (.new (c.args fk) t.made :: .optimize 0 :: visits 0 fk' t.updates 0 (t.climb.asked fk'.optimizerArray G N ++ [t.climb.point fk'.optimizerArray ((List.range N).map G)])) 0
      (c.args fk) m ∧
    m.fk = fk'.setOptimizerArray (t.climb.point fk'.optimizerArray ((List.range N).map G)) ∧
    Predicts sv (.new (c.args fk) t.made :: .optimize 0 :: visits 0 fk' t.updates 0 (t.climb.asked fk'.optimizerArray G N ++ [t.climb.point fk'.optimizerArray ((List.range N).map G)])) 0
      c.testXss t.asked x ∧
    ∀ w, (benchResult sv c [t] w).map (fun r => r.1.map Prod.fst) = (do
      let r ← x
      let s ← smse c.testYss r.1 (c.yss.map NDArr.data)
      let n ← nlpd c.testYss r.1 r.2
      return [some t.elapsed, s, n]) := by
  obtain ⟨fk, hfk, hd⟩ := h.kernel
  change fkNew t.rand (c.fkArgs t) = .ok fk at hfk
  change (c.args fk).Documented P fk at hd
  obtain ⟨m₀, fk', i1, i2, i3, i4, i5⟩ := llgpInit_documented hd h.inputs
  have hready : fk'.Ready P := i4 ▸ i2.ready
  obtain ⟨hso, ht, hap⟩ := new_sound t.rand (c.fkArgs t) (by simp [BenchCall.fkArgs]) (by simp [BenchCall.fkArgs]) fk fk' hfk P i3 hready h.smooth
  have hpd : (fk'.covMat (padded P (c.args fk).Xs)).PosDef := by
    have := sound_posDef i2 (i4 ▸ hso)
    rw [i4, i5] at this
    exact this
  obtain ⟨m₁, k₁, ca, n1, n2, n3, n4, n5⟩ := new_completes hs h.inputs hd h.samples i3 h.made (fun _ => hpd) true World.start
  have hv : ValidFrom [] [.new (c.args fk) t.made] := ⟨P, fk, fk', h.inputs, hd, h.samples, i3, hso, h.made, trivial⟩
  have hm₁ : modelsAfter sv [.new (c.args fk) t.made] 0 = some m₁ := by
    show (execOp true sv (.new (c.args fk) t.made) World.start).2.heap 0 = _
    rw [n1]
    rfl
  obtain ⟨G, hG, N, hN, hle, hrun, -⟩ := C90_optimize sv hs [.new (c.args fk) t.made] hv 0 m₁ hm₁ (n3 ▸ ht) t.updates h.updates t.climb h.keeps
    (fun gs y _ => by rw [n3]; exact periods_ok hap y) c.opts
  have hrun := hrun t.callback fun k _ => h.callback k
  rw [n3] at hG hrun
  obtain ⟨ops, hops⟩ : ∃ ops, ops = .new (c.args fk) t.made :: .optimize 0 :: visits 0 fk' t.updates 0
    (t.climb.asked fk'.optimizerArray G N ++ [t.climb.point fk'.optimizerArray ((List.range N).map G)]) := ⟨_, rfl⟩
  have hvalid : ValidFrom [] ops := hops ▸ (hG N).2.1
  have hw := validFrom_works ops [] hvalid
  obtain ⟨hc, hall⟩ := C69_valid_program sv hs ops hvalid
  have hset : setUp 0 none (trace sv ops) = some (c.args fk, some (fk'.setOptimizerArray (t.climb.point fk'.optimizerArray ((List.range N).map G)))) := by
    unfold trace
    rw [hops]
    show setUp 0 (match (execOp true sv (.new (c.args fk) t.made) World.start).1 with | .ok (.model j) => if j = 0 then some (c.args fk, none) else none | _ => none)
      ((visits 0 fk' t.updates 0 (t.climb.asked fk'.optimizerArray G N ++ [t.climb.point fk'.optimizerArray ((List.range N).map G)])).zip (history true sv (visits 0 fk' t.updates 0
        (t.climb.asked fk'.optimizerArray G N ++ [t.climb.point fk'.optimizerArray ((List.range N).map G)])) _).1) = _
    rw [n1]
    show setUp 0 (some (c.args fk, none)) _ = _
    rw [setUp_visits _ _ _ _ _ _ _ (answers_length _ _ _ _).symm]
    simp
  obtain ⟨m, hm⟩ : ∃ m, modelsAfter sv ops 0 = some m := by
    rcases hh : modelsAfter sv ops 0 with _ | m
    · have := (settled_history ops hw (settled_start sv 0) hc).absent hh
      have hset' : setUp 0 none (ops.zip (history true sv ops World.start).1) = some _ := hset
      rw [this] at hset'
      cases hset'
    · exact ⟨m, rfl⟩
  have held : Held sv ops 0 (c.args fk) m := ⟨hvalid, hm, _, hset⟩
  obtain ⟨a', g', m', k', e1, -, e3, -⟩ := C48_current sv ops hw hc 0 m hm
  rw [hset] at e1
  cases e1
  obtain ⟨k, -, -, -, -, -, hcur, hpred⟩ := held.facts hs
  have hp := hpred c.testXss t.asked h.asked
  refine ⟨fk, fk', G, N, m, m.gp.predict (m.rawPredict sv t.asked) c.testXss, hfk, i3, fun n => (hG n).2.2, hN, hle, hops ▸ held, e3, hops ▸ hp, fun w => ?_⟩
  have hask : (execOp true sv (.ask 0 (.predict c.testXss) t.asked) (history true sv ops World.start).2).1 = (m.gp.predict (m.rawPredict sv t.asked) c.testXss).map .predicted := by
    unfold Predicts at hp
    rw [results_one] at hp
    simpa using List.append_cancel_left hp
  have hscore : trialScore sv c t = (m.gp.predict (m.rawPredict sv t.asked) c.testXss) >>= fun r => smse c.testYss r.1 (c.yss.map NDArr.data) >>= fun s => nlpd c.testYss r.1 r.2 >>= fun n =>
      .ok (t.elapsed, s, n) := by
    unfold trialScore benchTrial
    have hnew : execOp true sv (.new (c.args fk) t.made) World.start = (.ok (.model 0), (history true sv [.new (c.args fk) t.made] World.start).2) := Prod.ext (by rw [n1]; rfl) rfl
    have e1 : (PyM.lift (fkNew t.rand (c.fkArgs t)) : PyM FK) World.start = (.ok fk, World.start) := by rw [hfk]; rfl
    rw [py_bind, e1]
    simp only
    rw [py_bind, hnew]
    simp only
    rw [py_bind, hrun]
    simp only
    rw [py_bind]
    rw [show [Op.new (c.args fk) t.made] ++ .optimize 0 :: visits 0 fk' t.updates 0 (t.climb.asked fk'.optimizerArray G N ++ [t.climb.point fk'.optimizerArray ((List.range N).map G)]) = ops
      from hops.symm]
    rcases hx : execOp true sv (.ask 0 (.predict c.testXss) t.asked) (history true sv ops World.start).2 with ⟨r, v⟩
    rw [hx] at hask
    simp only at hask
    subst hask
    cases m.gp.predict (m.rawPredict sv t.asked) c.testXss with
    | error e => rfl
    | ok p =>
      show ((PyM.lift (c.score p) >>= fun sn => (pure ((t.elapsed, sn.1, sn.2), 0) : PyM _)) v).1.map Prod.fst = _
      rw [py_bind]
      unfold BenchCall.score
      show _ = (smse c.testYss p.1 (c.yss.map NDArr.data) >>= fun s => nlpd c.testYss p.1 p.2 >>= fun n => (.ok (t.elapsed, s, n) : Except PyErr _))
      cases smse c.testYss p.1 (c.yss.map NDArr.data) with
      | error e => rfl
      | ok s =>
        show _ = (nlpd c.testYss p.1 p.2 >>= fun n => (.ok (t.elapsed, s, n) : Except PyErr _))
        cases nlpd c.testYss p.1 p.2 with
        | error e => rfl
        | ok n => rfl
  rw [benchResult_one, hscore]
  cases m.gp.predict (m.rawPredict sv t.asked) c.testXss with
  | error e => rfl
  | ok p =>
    show Except.map _ (smse c.testYss p.1 (c.yss.map NDArr.data) >>= fun s => nlpd c.testYss p.1 p.2 >>= fun n => (.ok (t.elapsed, s, n) : Except PyErr _)) =
      (smse c.testYss p.1 (c.yss.map NDArr.data) >>= fun s => nlpd c.testYss p.1 p.2 >>= fun n => (.ok [some t.elapsed, s, n] : Except PyErr _))
    cases smse c.testYss p.1 (c.yss.map NDArr.data) with
    | error e => rfl
    | ok s =>
      show Except.map _ (nlpd c.testYss p.1 p.2 >>= fun n => (.ok (t.elapsed, s, n) : Except PyErr _)) = (nlpd c.testYss p.1 p.2 >>= fun n => (.ok [some t.elapsed, s, n] : Except PyErr _))
      cases nlpd c.testYss p.1 p.2 with
      | error e => rfl
      | ok n => rfl

theorem smse_returns {test pred train : List (List ℝ)} (hp : SameShape test pred) (hl : test.length ≤ train.length) : ∃ s, smse test pred train = .ok s := by
  by_cases h : tested test = ∅ ∨ ∃ d ∈ tested test, train.getD d [] ≠ [] → ∀ i < (test.getD d []).length, (test.getD d []).getD i 0 = meanOf (train.getD d [])
  · exact ⟨_, C78_smse_undefined test pred train hp hl h⟩
  · push Not at h
    exact ⟨_, C78_smse test pred train hp hl h.1 (fun d hd => (h.2 d hd).1) fun d hd => (h.2 d hd).2⟩

theorem nlpd_returns {test pred vss : List (List ℝ)} (hp : SameShape test pred) (hv : SameShape test vss) (hnn : ∀ vs ∈ vss, ∀ v ∈ vs, 0 ≤ v) : ∃ n, nlpd test pred vss = .ok n := by
  by_cases h : informative vss = ∅
  · exact ⟨_, C78_nlpd_undefined test pred vss hp hv h⟩
  · exact ⟨_, C78_nlpd test pred vss hp hv hnn (Finset.nonempty_iff_ne_empty.2 h)⟩

theorem sameShape_of_lens {test other : List (List ℝ)} (h : other.map List.length = test.map List.length) : SameShape test other := by
  have hl : other.length = test.length := by simpa using congrArg List.length h
  refine ⟨hl, fun d => ?_⟩
  by_cases hd : d < test.length
  · have := congrArg (fun l => l.getD d 0) h
    rwa [map_getD_lt (by rw [hl]; exact hd), map_getD_lt hd] at this
  · rw [List.getD_eq_default _ _ (by omega), List.getD_eq_default _ _ (by omega)]

/-- C112: what a run with documented arguments measures. The model is made, its parameters are those of the optimiser's last point (`G` are the gradients of the objective at the points the
optimiser asked for; it stops at the first moment it may), and the scores are those of its predictions `x` at the test points, compared with the test values and the training values. -/
theorem C112_run (sv : Solvers) (hs : sv.Fit) (c : BenchCall) (t : Trial) (P : ℕ) (h : t.Documented c P) : ∃ (fk fk' : FK) (G : ℕ → List ℝ) (N : ℕ) (m : LLGP) (x : Except PyErr Predicted),
    fkNew t.rand (c.kernelArgs t) = .ok fk ∧ fk.setInputDim P = .ok fk' ∧
    (∀ n, ∃ m', modelsAfter sv (.new (c.modelArgs fk) t.made :: .optimize 0 :: visits 0 fk' t.updates 0 (t.climb.asked fk'.optimizerArray G (n + 1))) 0 = some m' ∧ G n = m'.objectiveGrads) ∧
    IsLeast {n | MayStop c.opts G n} N ∧ (N : ℤ) ≤ max 1 c.opts.maxIt ∧
    Held sv (.new (c.modelArgs fk) t.made :: .optimize 0 :: visits 0 fk' t.updates 0 (t.climb.asked fk'.optimizerArray G N ++ [t.climb.point fk'.optimizerArray ((List.range N).map G)])) 0
      (c.modelArgs fk) m ∧
    m.fk = fk'.setOptimizerArray (t.climb.point fk'.optimizerArray ((List.range N).map G)) ∧
    Predicts sv (.new (c.modelArgs fk) t.made :: .optimize 0 :: visits 0 fk' t.updates 0 (t.climb.asked fk'.optimizerArray G N ++ [t.climb.point fk'.optimizerArray ((List.range N).map G)])) 0
      c.testXss t.asked x ∧
    ∀ w, (benchResult sv c [t] w).map (fun r => r.1.map Prod.fst) = (do
      let r ← x
      let s ← smse c.testYss r.1 (c.yss.map NDArr.data)
      let n ← nlpd c.testYss r.1 r.2
      return [some t.elapsed, s, n]) :=
  run_measures sv hs c t P h

/-- C112: a documented run returns, if there is a test value for each test point. -/
theorem C112_returns (sv : Solvers) (hs : sv.Fit) (c : BenchCall) (t : Trial) (P : ℕ) (h : t.Documented c P) (hQ : QueriesOK c.xss.length P c.testXss) (hW : ∀ Q ∈ c.testXss, Q.WF)
    (hY : c.testYss.map List.length = queryLens c.testXss) (hmode : c.prediction = "exact" ∨ c.prediction = "on-the-fly" ∧ 0 < (queryLens c.testXss).sum) :
    ∃ s n, ∀ w, (benchResult sv c [t] w).map (fun r => r.1.map Prod.fst) = .ok [some t.elapsed, s, n] := by
  obtain ⟨fk, fk', G, N, m, x, h1, h2, -, -, -, held, -, hp, hres⟩ := C112_run sv hs c t P h
  obtain ⟨k, f1, f2, f3, f4, f5, f6, f7⟩ := held.facts hs
  have hm := held_mode hs held
  obtain ⟨fk₁, g1, g2⟩ := h.kernel
  rw [h1] at g1
  cases g1
  have hmade : m.gp.inputDim = P ∧ m.gp.outputDim = c.xss.length := by
    obtain ⟨fk₂, m₂, d1, d2, d3, d4, d5⟩ := f1
    obtain ⟨i1, -⟩ := documented_fields g2 d2
    obtain ⟨i1, i2, -⟩ := documented_fields g2 d2
    rw [d3]
    exact ⟨i1, i2⟩
  have hacc : m.Accepts c.testXss := by
    unfold LLGP.Accepts
    rw [hmade.1, hmade.2]
    exact ⟨hQ, hW⟩
  obtain ⟨r1, r2⟩ := C43_returns sv m m.gp.inputDim k c.testXss (f4 _ hacc) t.asked h.asked
  obtain ⟨r, hr⟩ := r2.2 ⟨f2.plain, by
    unfold LLGP.CanPredict
    rcases hmode with e | ⟨e, hpos⟩
    · have : m.prediction = .exact := by
        rw [show (c.modelArgs fk).prediction = c.prediction from rfl, e] at hm
        exact (Option.some.inj hm).symm
      rw [this]
      exact sound_posDef f5 f2
    · have : m.prediction = .onTheFly := by
        rw [show (c.modelArgs fk).prediction = c.prediction from rfl, e] at hm
        exact (Option.some.inj hm).symm
      rw [this]
      exact hpos⟩
  have hx : x = .ok r := by
    have h7 := f7 c.testXss t.asked h.asked
    unfold Predicts at hp h7
    rw [h7, hr] at hp
    have := List.append_cancel_left hp
    simp only [List.cons.injEq, and_true] at this
    cases x with
    | error e => simp [Except.map] at this
    | ok r' => simp only [Except.map, Except.ok.injEq, Answer.predicted.injEq] at this; rw [this]
  obtain ⟨q1, q2, q3⟩ := r1 r hr
  have s1 := sameShape_of_lens (q1.trans hY.symm)
  have s2 := sameShape_of_lens (q2.trans hY.symm)
  obtain ⟨s, es⟩ := smse_returns (train := c.yss.map NDArr.data) s1 (by
    have e1 : c.testYss.length = c.testXss.length := by simpa [queryLens] using congrArg List.length hY
    have e2 : c.yss.length = c.xss.length := g2.data.len.symm
    rw [List.length_map, e1, e2, hQ.1])
  obtain ⟨n, en⟩ := nlpd_returns s1 s2 q3
  refine ⟨s, n, fun w => ?_⟩
  rw [hres, hx, ok_bind, es, ok_bind, en]
  rfl

/-! ### the second number -/

/-- C112: what is reported beside the mean of `n` values is `√((n - 1) / n)` times the standard error, which is less, unless the values coincide; for a single run it is `0`. -/
theorem C112_spread (x : List ℝ) : (2 ≤ x.length → runSpread x = Real.sqrt ((x.length - 1) / x.length) * standardError x ∧ ((∀ v ∈ x, v = runMean x) ∨ runSpread x < standardError x)) ∧
    (x.length = 1 → runSpread x = 0) := by
  obtain ⟨S, hS⟩ : ∃ S, S = (x.map fun v => (v - runMean x) ^ 2).sum := ⟨_, rfl⟩
  have hnn : ∀ y ∈ x.map fun v => (v - runMean x) ^ 2, 0 ≤ y := by
    intro y hy
    obtain ⟨v, -, rfl⟩ := List.mem_map.1 hy
    exact sq_nonneg _
  have hS0 : 0 ≤ S := hS ▸ List.sum_nonneg hnn
  have e1 : runSpread x = Real.sqrt (S / x.length) / Real.sqrt x.length := by
    unfold runSpread
    rw [runMean, List.length_map, ← hS]
  have e2 : standardError x = Real.sqrt (S / (x.length - 1)) / Real.sqrt x.length := by
    unfold standardError
    rw [← hS]
  refine ⟨fun hn => ?_, fun hn => ?_⟩
  · have hn' : (2 : ℝ) ≤ x.length := by exact_mod_cast hn
    have hsq : 0 < Real.sqrt x.length := Real.sqrt_pos.2 (by linarith)
    constructor
    · rw [e1, e2, ← mul_div_assoc, ← Real.sqrt_mul (div_nonneg (by linarith) (by linarith))]
      congr 2
      have : (x.length : ℝ) - 1 ≠ 0 := by intro h; linarith
      have : (x.length : ℝ) ≠ 0 := by intro h; linarith
      field_simp
    · rcases hS0.eq_or_lt with h | h
      · left
        intro v hv
        have h1 := List.single_le_sum hnn _ (List.mem_map_of_mem (f := fun v => (v - runMean x) ^ 2) hv)
        rw [← hS, ← h] at h1
        have h2 := pow_eq_zero_iff (two_ne_zero) |>.1 (le_antisymm h1 (sq_nonneg _))
        linarith
      · right
        rw [e1, e2]
        refine div_lt_div_of_pos_right (Real.sqrt_lt_sqrt (by positivity) ?_) hsq
        exact div_lt_div_of_pos_left h (by linarith) (by linarith)
  · obtain ⟨v, rfl⟩ := List.length_eq_one_iff.1 hn
    simp [runSpread, runMean]

/-! ### an example -/

/-- two outputs, with three test points -/
noncomputable def demoCall (keep : Option Bool) : BenchCall :=
  ⟨[⟨[2, 2], [0, 0, 1, 1]⟩, ⟨[2, 2], [0, 1, 1, 0]⟩], [⟨[2], [1, 3]⟩, ⟨[2], [5, 7]⟩], [⟨[1, 2], [0, 0]⟩, ⟨[2, 2], [0, 1, 1, 1]⟩], [[2], [4, 9]], .none, .none, .none, false, "on-the-fly", 15, 1e-4,
    {}, keep⟩

/-- a run of gradient descent that takes `s` seconds -/
noncomputable def demoTrial (rand : ℕ → ℕ → ℕ → ℝ) (s : ℝ) : Trial :=
  ⟨[.rbf 1 none], [2], [], [.scaled (.matern32 1 none) 1 none], rand, quiet, fun _ => quiet, descent, fun _ => .ok (), quiet, s⟩

theorem demo_documented (keep : Option Bool) (rand : ℕ → ℕ → ℕ → ℝ) (s : ℝ) : (demoTrial rand s).Documented (demoCall keep) 2 := by
  obtain ⟨fk₀, ⟨k1, -⟩, -, h⟩ := exists_documented_from rand
  have hd := h .onTheFly false none (by simp)
  obtain ⟨fk, hfk⟩ := (C29_accepts_partial rand ((demoCall keep).fkArgs (demoTrial rand s)) (by simp [BenchCall.fkArgs]) (by simp [BenchCall.fkArgs])).2
    ⟨⟨⟨2, rfl, by norm_num⟩, by simp [given, BenchCall.fkArgs, demoTrial], rfl, by simp [given, BenchCall.fkArgs, demoTrial], .inl rfl⟩,
      fun D hD => by cases hD; simp [given, BenchCall.fkArgs, demoTrial, demoCall]⟩
  obtain ⟨hk, hD, hQ, hw, hf⟩ := C29_contents _ _ _ (by simp [BenchCall.fkArgs]) (by simp [BenchCall.fkArgs]) hfk
  have hkk : fk.kernels = fk₀.kernels := by rw [hk, k1]; rfl
  refine ⟨by norm_num, by simp [demoCall], ⟨fk, hfk, ⟨hd.data, hd.arraysX, hd.arraysY, hd.filled, rfl, hf, hw, by rw [hQ]; simp [given, BenchCall.fkArgs, demoTrial], ?_, ?_, ?_, hd.mode, trivial, trivial, trivial,
    hd.sizes, hd.spread⟩⟩, ?_, quiet_calm, fun _ => quiet_calm, quiet_calm.1, descent_keeps, fun _ => rfl⟩
  · have : (2 : ℤ) = (fk.D : ℤ) := Option.some.inj hD
    show fk.D = 2
    omega
  · rw [hkk]; exact hd.valid
  · rw [hkk]; exact hd.dims
  · intro k hk
    simp only [demoTrial, List.append_nil, List.cons_append, List.nil_append, List.mem_cons, List.not_mem_nil, or_false] at hk
    rcases hk with rfl | rfl <;> exact ⟨trivial, trivial⟩

theorem demo_returns (keep : Option Bool) (rand : ℕ → ℕ → ℕ → ℝ) (s : ℝ) : ∃ a b, ∀ w,
    (benchResult exactSolvers (demoCall keep) [demoTrial rand s] w).map (fun r => r.1.map Prod.fst) = .ok [some s, a, b] := by
  refine C112_returns exactSolvers exactSolvers_fit (demoCall keep) (demoTrial rand s) 2 (demo_documented keep rand s) ⟨rfl, fun X hX => ?_⟩ (fun X hX => ?_) rfl (.inr ⟨rfl, ?_⟩)
  · simp only [demoCall, List.mem_cons, List.not_mem_nil, or_false] at hX
    rcases hX with rfl | rfl
    · exact ⟨1, .inr rfl⟩
    · exact ⟨2, .inr rfl⟩
  · simp only [demoCall, List.mem_cons, List.not_mem_nil, or_false] at hX
    rcases hX with rfl | rfl <;> rfl
  · simp [demoCall, queryLens]

/-- C112: two documented runs, of one and three seconds. The standard error of the mean time is one second; what is reported is less. -/
theorem C112_violated : ∃ (sv : Solvers) (c : BenchCall) (ts : List Trial), sv.Fit ∧ (∀ t ∈ ts, t.Documented c 2) ∧ standardError (ts.map Trial.elapsed) = 1 ∧
    ∀ w, ∃ b d r, benchResult sv c ts w = .ok ([(some (runMean (ts.map Trial.elapsed)), some r), b, d], none) ∧ r < 1 := by
  obtain ⟨f, h1, h2⟩ := C112_runs_partial exactSolvers (demoCall none)
  have hf : ∀ s, ∃ a b, f (demoTrial (fun _ i j => i + j) s) = .ok (s, a, b) := by
    intro s
    obtain ⟨a, b, hab⟩ := demo_returns none (fun _ i j => i + j) s
    have := h1 (demoTrial (fun _ i j => i + j) s) World.start
    rw [hab World.start] at this
    cases hx : f (demoTrial (fun _ i j => i + j) s) with
    | error e => rw [hx] at this; cases this
    | ok p =>
      rw [hx] at this
      simp only [Except.map, Except.ok.injEq, List.cons.injEq, Option.some.injEq, and_true] at this
      exact ⟨a, b, by rw [this.1, this.2.1, this.2.2]⟩
  obtain ⟨a₁, b₁, e₁⟩ := hf 1
  obtain ⟨a₂, b₂, e₂⟩ := hf 3
  have hse : standardError [1, 3] = 1 := by norm_num [standardError, runMean]
  refine ⟨exactSolvers, demoCall none, [demoTrial (fun _ i j => i + j) 1, demoTrial (fun _ i j => i + j) 3], exactSolvers_fit, ?_, hse, fun w => ?_⟩
  · intro t ht
    simp only [List.mem_cons, List.not_mem_nil, or_false] at ht
    rcases ht with rfl | rfl <;> exact demo_documented _ _ _
  · obtain ⟨a, b, d, l, g1, g2, g3, -⟩ := (h2 [demoTrial (fun _ i j => i + j) 1, demoTrial (fun _ i j => i + j) 3] w (.inl rfl)).1 [(1, a₁, b₁), (3, a₂, b₂)] (.cons e₁ (.cons e₂ .nil))
    have hl : l = none := g2.2 rfl
    have ha := g3.1 [1, 3] rfl (by simp)
    refine ⟨b, d, runSpread [1, 3], by rw [g1, hl, ha]; rfl, ?_⟩
    refine lt_of_lt_of_eq ?_ hse
    rcases ((C112_spread [1, 3]).1 le_rfl).2 with h | h
    · have := h 1 (by simp)
      norm_num [runMean] at this
    · exact h

/-- hypotheses of C112: documented runs from different initial values, one that returns the model -/
example : ∃ (c : BenchCall) (t t' : Trial), exactSolvers.Fit ∧ t.Documented c 2 ∧ t'.Documented c 2 ∧ t ≠ t' ∧ c.returnLmc = some false ∧ QueriesOK c.xss.length 2 c.testXss ∧
    ∀ w, ∃ r i, benchResult exactSolvers c [t] w = .ok (r, some i) := by
  obtain ⟨a, b, hab⟩ := demo_returns (some false) (fun _ i j => i + j) 1
  refine ⟨demoCall (some false), demoTrial (fun _ i j => i + j) 1, demoTrial (fun _ _ _ => 1) 2, exactSolvers_fit, demo_documented _ _ _, demo_documented _ _ _, ?_, rfl, ⟨rfl, fun X hX => ?_⟩, fun w => ?_⟩
  · intro h
    have := congrArg Trial.elapsed h
    norm_num [demoTrial] at this
  · simp only [demoCall, List.mem_cons, List.not_mem_nil, or_false] at hX
    rcases hX with rfl | rfl
    · exact ⟨1, .inr rfl⟩
    · exact ⟨2, .inr rfl⟩
  · obtain ⟨l, g1, g2⟩ := benchResult_eq exactSolvers (demoCall (some false)) [demoTrial (fun _ i j => i + j) 1] w (.inr (by simp))
    have := hab w
    rw [g2] at this ⊢
    cases hx : mapExcept (trialScore exactSolvers (demoCall (some false))) [demoTrial (fun _ i j => i + j) 1] with
    | error e => rw [hx] at this; cases this
    | ok ps =>
      cases hl : l ps with
      | none => exact absurd ((g1 ps).1 hl) (by simp [demoCall])
      | some i => exact ⟨_, i, by simp only [Except.map, hl]; rfl⟩

end Verif
