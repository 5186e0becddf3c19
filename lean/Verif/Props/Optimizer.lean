import Verif.Proofs.OptimizerValid
import Verif.Proofs.LLGPExample
import Verif.Props.Reordered

/-! C90: what a call of `optimize` does to the model. -/

namespace Verif

/-- The constructor makes functional kernels whose numbers of linked parameters are those of `FK.Tunable`. -/
theorem C90_constructed (rand : ℕ → ℕ → ℕ → ℝ) (a : FKArgs) (hk : a.lmcKernels ≠ none) (hr : a.lmcRanks ≠ none) (fk fk' : FK) (h : fkNew rand a = .ok fk) (P : ℕ)
    (h' : fk.setInputDim P = .ok fk') : fk'.linkedVecs = fk'.numLmcTotal + fk'.numSlfmTotal ∧ fk'.linkedDiags = fk'.numLmcTotal := by
  obtain ⟨d, r⟩ := (C29_accepts_partial rand a hk hr).1 ⟨fk, h⟩
  have hfresh := (C29_contents rand a fk hk hr h).2.2.2.2
  obtain ⟨D, hD, h2⟩ := (fkNew_given rand a hk hr).1 d r
  rw [h2] at h
  obtain ⟨fk'', g1, g2⟩ := setInputDim_fresh fk P hfresh
  rw [h'] at g1
  cases g1
  rw [g2.same]
  cases h
  exact ⟨congrArg (· + (given a.slfmKernels).length) d.ranks, rfl⟩

/-- The optimiser can put any real numbers in the flat array: the parameters it sets are in their documented ranges (as long as the period of no periodic kernel gets under the limit), the
covariance is sound, and the constants of the model are untouched. -/
theorem C90_valid (fk : FK) (P : ℕ) (hr : fk.Ready P) (hs : fk.Sound) (ht : fk.Tunable) (x : List ℝ) (hx : x.length = fk.optimizerArray.length)
    (hp : ∀ k ∈ (fk.setOptimizerArray x).kernels, k.PeriodOK) :
    fk.Retuned (fk.setOptimizerArray x) ∧ (fk.setOptimizerArray x).Sound ∧ (fk.setOptimizerArray x).Tunable :=
  tuned_valid hr hs ht (by rw [hx]; exact List.length_map _) hp

theorem decode_encode {s : Slot} {v : ℝ} (h : s.logexp = true → 0 < v) : s.decode (s.encode v) = v := by
  unfold Slot.decode Slot.encode
  cases hl : s.logexp with
  | false => rfl
  | true =>
    have : 1 < Real.exp v := Real.one_lt_exp_iff.2 (h hl)
    simp only [if_true]
    rw [Real.exp_log (by linarith), show 1 + (Real.exp v - 1) = Real.exp v by ring, Real.log_exp]

theorem write_read {fk : FK} (hw : ∀ q < fk.coregVecs.length, (fk.coregVecs.getD q ⟨0, 0, []⟩).WF) (s : Slot) (hs : s ∈ fk.slots) (hst : fk.Stored) : fk.write s (fk.read s) = fk := by
  have hset : ∀ {α : Type} (l : List α) (q : ℕ) (d a : α), q < l.length → a = l.getD q d → l.set q a = l := by
    intro α l q d a hq ha
    rw [ha, List.getD_eq_getElem _ _ hq]
    exact List.set_getElem_self hq
  cases s with
  | kern q j =>
    obtain ⟨h1, h2⟩ := mem_slots.1 hs
    unfold FK.write FK.read
    simp only
    rw [Kern.write_self _ h2, hset _ _ _ _ h1 rfl]
  | vec q i j =>
    obtain ⟨h1, h2, h3⟩ := mem_slots.1 hs
    have hq : q < fk.coregVecs.length := lt_of_lt_of_le h1 hst.vecs
    have : (fk.coregVecs.getD q ⟨0, 0, []⟩).write i j ((fk.coregVecs.getD q ⟨0, 0, []⟩).get i j) = fk.coregVecs.getD q ⟨0, 0, []⟩ := by
      unfold Arr2.write
      rw [Arr2.of_congr (g := (fk.coregVecs.getD q ⟨0, 0, []⟩).get) fun r hr c hc => ?_]
      · exact Arr2.of_self (hw q hq)
      · split_ifs with e
        · rw [e.1, e.2]
        · rfl
    unfold FK.write FK.read
    simp only
    rw [this, hset _ _ _ _ hq rfl]
  | diag q i =>
    obtain ⟨h1, h2⟩ := mem_slots.1 hs
    unfold FK.write FK.read
    simp only
    rw [hset (fk.coregDiags.getD q []) i 0 _ h2 rfl, hset _ _ _ _ (lt_of_lt_of_le h1 hst.diags) rfl]
  | noise i =>
    unfold FK.write FK.read
    simp only
    rw [hset _ _ _ _ (mem_slots.1 hs) rfl]

/-- Assigning the flat array its own value changes no parameter. -/
theorem C90_round_trip (fk : FK) (P : ℕ) (hr : fk.Ready P) (ht : fk.Tunable) (hpos : ∀ s ∈ fk.slots, s.logexp = true → 0 < fk.read s) : fk.setOptimizerArray fk.optimizerArray = fk := by
  have hst := ht.stored hr.wf
  have hw : ∀ q < fk.coregVecs.length, (fk.coregVecs.getD q ⟨0, 0, []⟩).WF := fun q hq => (hr.wf.vec q (by rw [hr.wf.vecs] at hq; exact hq)).1
  have key : ∀ ss : List Slot, (∀ s ∈ ss, s ∈ fk.slots) → fk.writeAll ss Slot.decode (ss.map fun s => s.encode (fk.read s)) = fk := by
    intro ss
    induction ss with
    | nil => intro _; rfl
    | cons s ss ih =>
      intro h
      have hs := h s (by simp)
      show (fk.write s (s.decode (s.encode (fk.read s)))).writeAll ss Slot.decode (ss.map fun s => s.encode (fk.read s)) = fk
      rw [decode_encode (hpos s hs), write_read hw s hs hst]
      exact ih fun s' hs' => h s' (by simp [hs'])
  exact key fk.slots fun _ h => h

/-- Whatever happens during `optimize` — updates or the callback raise, solves do not converge, pools break down — its effect is that of a program that assigns points to the
parameters, one after the other. If it returns, the last one is the point where the optimiser has stopped. -/
theorem C90_program (u : Bool) (sv : Solvers) (es : ℕ → Env) (i : ℕ) (c : Climb) (hk : c.Keeps) (o : AdaOpts) (cb : ℕ → Except PyErr Unit) (w : World) (m : LLGP)
    (hm : w.heap i = some m) :
    ∃ xs, (optimizeM u sv es i c o cb w).2 = (history u sv (.optimize i :: visits i m.fk es 0 xs) w).2 ∧ (∀ y ∈ xs, y.length = m.fk.optimizerArray.length) ∧
      (xs.length : ℤ) ≤ max 1 o.maxIt + 1 ∧ ((optimizeM u sv es i c o cb w).1 = .ok () → ∃ ys gs, xs = ys ++ [c.point m.fk.optimizerArray gs] ∧ gs.length = ys.length) := by
  have hx : m.fk.optimizerArray.length = m.fk.slots.length := List.length_map _
  obtain ⟨w₁, hop, h1, hrun⟩ := optimizeM_run (u := u) (sv := sv) (es := es) (c := c) (o := o) (cb := cb) hm
  obtain ⟨xs, q1, q2, q3, ⟨m', q4, q5⟩, q6⟩ := runLoop_visits (u := u) (sv := sv) (es := es) (i := i) (c := c) hx hk o cb _ ⟨[], w₁⟩ 0 o.permittedDrops 0 _ le_rfl h1 (FK.Like.refl m.fk)
  rw [hrun]
  clear hrun
  generalize runLoop (Run.step u sv es i c m.fk.optimizerArray) o cb ⟨[], w₁⟩ 0 o.permittedDrops 0 = r at *
  obtain ⟨a, s⟩ := r
  push_cast at q3
  rw [sub_zero] at q3
  simp only at q1 q4 q5 q6 ⊢
  cases a with
  | error err =>
    refine ⟨xs, ?_, fun y hy => (q2 y hy).trans hx.symm, by omega, fun h => by cases h⟩
    show s.world = (history u sv (visits i m.fk es 0 xs) (execOp u sv (.optimize i) w).2).2
    rw [hop]
    exact q1
  | ok v =>
    have hlen : (c.point m.fk.optimizerArray s.grads).length = m.fk.slots.length := (hk _ _).2.trans hx
    have hg : s.grads.length = xs.length := by simpa using q6 v rfl
    show ∃ xs, _ ∧ _
    refine ⟨xs ++ [c.point m.fk.optimizerArray s.grads], ?_, ?_, ?_, fun _ => ⟨xs, s.grads, rfl, hg⟩⟩
    · show ((do
        modifySelf i fun m' => { m' with fk := m'.fk.setOptimizerArray (c.point m.fk.optimizerArray s.grads) }
        parametersChanged u sv (es s.grads.length) i : PyM Unit) s.world).2 =
          (history u sv (visits i m.fk es 0 (xs ++ [c.point m.fk.optimizerArray s.grads])) (execOp u sv (.optimize i) w).2).2
      rw [hop, visits_snoc sv, history_append, py_bind, modify_run q4]
      simp only
      rw [show (history u sv (visits i m.fk es 0 xs) w₁).2 = s.world from q1.symm, ← (assign_set u sv _ q4 _).1, q5.2 _ hlen, hg]
      rfl
    · intro y hy
      rcases List.mem_append.1 hy with hy | hy
      · exact (q2 y hy).trans hx.symm
      · rw [List.mem_singleton.1 hy]
        exact hlen.trans hx.symm
    · rw [List.length_append]
      push_cast
      simp only [List.length_nil, List.length_cons]
      omega

/-- the points the optimiser asks for, when its gradients are `G` -/
def Climb.asked (c : Climb) (x : List ℝ) (G : ℕ → List ℝ) (n : ℕ) : List (List ℝ) := (List.range n).map fun k => c.ask x ((List.range k).map G)

/-- `optimize` on a model of a program that uses its models as documented. `G k` is the gradient of the objective after the `k`-th update, which is at the point the optimiser asks for after
the `k` gradients before. The optimiser stops at the first moment it may. If no callback raises, `optimize` returns, it has done what the (valid) program does that assigns these points and
then the final one, and no more; if the callback raises, so does `optimize`, and it has done what the program does that assigns the points so far. -/
theorem C90_optimize (sv : Solvers) (hs : sv.Fit) (pre : List Op) (hv : ValidFrom [] pre) (i : ℕ) (m : LLGP) (hm : modelsAfter sv pre i = some m) (ht : m.fk.Tunable)
    (es : ℕ → Env) (hes : ∀ k, (es k).Calm) (c : Climb) (hk : c.Keeps)
    (hp : ∀ gs, ∀ y ∈ [c.ask m.fk.optimizerArray gs, c.point m.fk.optimizerArray gs], ∀ k ∈ (m.fk.setOptimizerArray y).kernels, k.PeriodOK) (o : AdaOpts) :
    ∃ G : ℕ → List ℝ,
      (∀ n, ValidFrom [] (pre ++ .optimize i :: visits i m.fk es 0 (c.asked m.fk.optimizerArray G n)) ∧
        ValidFrom [] (pre ++ .optimize i :: visits i m.fk es 0 (c.asked m.fk.optimizerArray G n ++ [c.point m.fk.optimizerArray ((List.range n).map G)])) ∧
        ∃ m', modelsAfter sv (pre ++ .optimize i :: visits i m.fk es 0 (c.asked m.fk.optimizerArray G (n + 1))) i = some m' ∧ G n = m'.objectiveGrads) ∧
      ∃ N, IsLeast {n | MayStop o G n} N ∧ (N : ℤ) ≤ max 1 o.maxIt ∧
        (∀ cb : ℕ → Except PyErr Unit, (∀ k < N, cb k = .ok ()) → optimizeM true sv es i c o cb (history true sv pre World.start).2 =
          (.ok (), (history true sv (pre ++ .optimize i :: visits i m.fk es 0 (c.asked m.fk.optimizerArray G N ++ [c.point m.fk.optimizerArray ((List.range N).map G)])) World.start).2)) ∧
        ∀ (cb : ℕ → Except PyErr Unit) (k : ℕ) (e : PyErr), k < N → (∀ j < k, cb j = .ok ()) → cb k = .error e → optimizeM true sv es i c o cb (history true sv pre World.start).2 =
          (.error e, (history true sv (pre ++ .optimize i :: visits i m.fk es 0 (c.asked m.fk.optimizerArray G (k + 1))) World.start).2) := by
  have hx : m.fk.optimizerArray.length = m.fk.slots.length := List.length_map _
  obtain ⟨fks, hh, hext⟩ := valid_extend hs pre [] World.start (healthy_start sv) hv
  obtain ⟨fks₀, hv₀, hext₀, -, -, hh₀, -⟩ := healthy_step hs (.optimize i) [] fks _ hh trivial
  obtain ⟨w, hw⟩ : ∃ w, w = (history true sv pre World.start).2 := ⟨_, rfl⟩
  have hm' : w.heap i = some m := by rw [hw]; exact hm
  rw [← hw] at hh hh₀
  obtain ⟨w₁, hop, h1, -⟩ := optimizeM_run (u := true) (sv := sv) (es := es) (c := c) (o := o) (cb := fun _ => .ok ()) hm'
  rw [hop] at hh₀
  have h₀ : OnRun sv i m.fk es fks₀ w₁ [] w₁ fks₀ := ⟨rfl, hh₀, fun _ h => h, m.fk, (hh₀.listed h1 :), FK.Like.refl _, ht⟩
  have hwf : m.fk.WF := by
    obtain ⟨P, k, q, -⟩ := hh.at hm'
    exact q.ready.wf
  have hworld : ∀ xs, (history true sv (pre ++ .optimize i :: visits i m.fk es 0 xs) World.start).2 = (history true sv (visits i m.fk es 0 xs) w₁).2 := by
    intro xs
    rw [history_append, ← hw]
    show (history true sv (visits i m.fk es 0 xs) (execOp true sv (.optimize i) w).2).2 = _
    rw [hop]
  obtain ⟨G, S, hS, hruns, hall⟩ := run_on hs hes h₀ (slots_ne_nil hwf) hk hx fun gs => hp gs _ (by simp)
  have hpoint : ∀ n, ∃ fks' m', (execOp true sv (.set i (m.fk.setOptimizerArray (c.point m.fk.optimizerArray ((List.range n).map G))) (es n)) (S n).world).1 = .ok .unit ∧
      OnRun sv i m.fk es fks₀ w₁ (c.asked m.fk.optimizerArray G n ++ [c.point m.fk.optimizerArray ((List.range n).map G)])
        (execOp true sv (.set i (m.fk.setOptimizerArray (c.point m.fk.optimizerArray ((List.range n).map G))) (es n)) (S n).world).2 fks' ∧
      (execOp true sv (.set i (m.fk.setOptimizerArray (c.point m.fk.optimizerArray ((List.range n).map G))) (es n)) (S n).world).2.heap i = some m' ∧
      m'.fk = m.fk.setOptimizerArray (c.point m.fk.optimizerArray ((List.range n).map G)) := by
    intro n
    obtain ⟨-, ⟨fks', hon⟩, -⟩ := hall n
    have := visit_valid hs hon (hes _) ((hk _ _).2.trans hx) (hp ((List.range n).map G) (c.point m.fk.optimizerArray ((List.range n).map G)) (by simp))
    rw [show ((List.range n).map fun k => c.ask m.fk.optimizerArray ((List.range k).map G)).length = n by simp] at this
    exact this
  have hvalid : ∀ xs wn fks', OnRun sv i m.fk es fks₀ w₁ xs wn fks' → ValidFrom [] (pre ++ .optimize i :: visits i m.fk es 0 xs) := by
    intro xs wn fks' h
    refine hext _ (hext₀ _ ?_)
    have := h.extend [] trivial
    rwa [List.append_nil] at this
  refine ⟨G, fun n => ⟨?_, ?_, ?_⟩, ?_⟩
  · obtain ⟨-, ⟨fks', hon⟩, -⟩ := hall n
    exact hvalid _ _ _ hon
  · obtain ⟨fks', -, -, hon, -⟩ := hpoint n
    exact hvalid _ _ _ hon
  · obtain ⟨-, -, m', h5, h6⟩ := hall n
    obtain ⟨-, ⟨fks', hon⟩, -⟩ := hall (n + 1)
    refine ⟨m', ?_, h6⟩
    unfold modelsAfter
    rw [hworld]
    rw [hon.world] at h5
    exact h5
  · obtain ⟨N, n1, n2, -, n4⟩ := exists_stop o G
    have hzero : o.permittedDrops - ((dropsIn o.minGradRatio G 0 : ℕ) : ℤ) = o.permittedDrops := by unfold dropsIn; simp
    refine ⟨N, ⟨n1, fun n hn => not_lt.1 fun hlt => n2 n hlt hn⟩, n4, fun cb hcb => ?_, fun cb k e hkN hcb he => ?_⟩
    · have hl := runLoop_ok hruns o cb n1 n2 hcb (N - 1) 0 (by have := n1.1; omega)
      rw [hzero, show runMax G 0 = 0 from rfl, hS] at hl
      obtain ⟨w₁', hop', -, hrun⟩ := optimizeM_run (u := true) (sv := sv) (es := es) (c := c) (o := o) (cb := cb) hm'
      rw [hop] at hop'
      subst hop'
      obtain ⟨hg, ⟨fks', hon⟩, -⟩ := hall N
      obtain ⟨fks'', m', p1, p2, p3, p4⟩ := hpoint N
      obtain ⟨fk, r1, r2, r3⟩ := hon.self
      obtain ⟨mN, P, kk, t1, t2, t3, -⟩ := hon.healthy.model i fk r1
      rw [← hw, hrun, hl, hworld, ← p2.world]
      simp only
      rw [hg, List.length_map, List.length_range]
      have ha := assign_set true sv (es N) t1 (c.point m.fk.optimizerArray ((List.range N).map G))
      rw [show mN.fk.setOptimizerArray (c.point m.fk.optimizerArray ((List.range N).map G)) = m.fk.setOptimizerArray (c.point m.fk.optimizerArray ((List.range N).map G)) by
        rw [t3]; exact r2.2 _ ((hk _ _).2.trans hx)] at ha
      rw [py_bind, modify_run t1]
      simp only
      rw [show mN.fk.setOptimizerArray (c.point m.fk.optimizerArray ((List.range N).map G)) = m.fk.setOptimizerArray (c.point m.fk.optimizerArray ((List.range N).map G)) by
        rw [t3]; exact r2.2 _ ((hk _ _).2.trans hx)]
      refine Prod.ext ?_ ha.1.symm
      have := ha.2
      rw [p1] at this
      revert this
      cases (parametersChanged true sv (es N) i ((S N).world.put i { mN with fk := m.fk.setOptimizerArray (c.point m.fk.optimizerArray ((List.range N).map G)) })).1 with
      | error _ => intro h; simp [Except.map] at h
      | ok v => intro _; rfl
    · have hl := runLoop_error hruns o cb (fun n hn => n2 n (by omega)) hcb he k 0 (by omega)
      rw [hzero, show runMax G 0 = 0 from rfl, hS] at hl
      obtain ⟨w₁', hop', -, hrun⟩ := optimizeM_run (u := true) (sv := sv) (es := es) (c := c) (o := o) (cb := cb) hm'
      rw [hop] at hop'
      subst hop'
      obtain ⟨-, ⟨fks', hon⟩, -⟩ := hall (k + 1)
      rw [← hw, hrun, hl, hworld]
      exact Prod.ext rfl hon.world

theorem Kern.periodOK_of_aperiodic : ∀ {k : Kern}, k.aperiodic → k.PeriodOK
  | .rbf _ _, _ => trivial
  | .matern32 _ _, _ => trivial
  | .stdPeriodic _ _ _, h => h.elim
  | .identity _, _ => trivial
  | .scaled k _ _, h => Kern.periodOK_of_aperiodic (k := k) h

/-- without periodic kernels every point is fine -/
theorem periods_ok {fk : FK} (h : ∀ q < fk.Q, (fk.kernels.getD q (.identity none)).aperiodic) (x : List ℝ) : ∀ k ∈ (fk.setOptimizerArray x).kernels, k.PeriodOK := by
  intro k hk
  obtain ⟨q, hq, rfl⟩ := mem_getD hk (.identity none)
  have hf := setOptimizerArray_frame fk x
  refine Kern.periodOK_of_aperiodic ?_
  rw [← Kern.skeleton_aperiodic, hf.kernels, Kern.skeleton_aperiodic]
  exact h q (show q < fk.kernels.length from hf.count ▸ hq)

/-- plain gradient descent -/
def descent : Climb where
  ask x gs := gs.foldl (fun x g => vmk x.length fun i => x.getD i 0 - g.getD i 0) x
  point x gs := gs.foldl (fun x g => vmk x.length fun i => x.getD i 0 - g.getD i 0) x

theorem descent_keeps : descent.Keeps := by
  have key : ∀ (gs : List (List ℝ)) (x : List ℝ), (gs.foldl (fun x g => vmk x.length fun i => x.getD i 0 - g.getD i 0) x).length = x.length := by
    intro gs
    induction gs with
    | nil => intro x; rfl
    | cons g gs ih => intro x; rw [List.foldl_cons, ih]; exact vmk_length _ _
  exact fun x gs => ⟨key gs x, key gs x⟩

/-- a model whose parameters can be tuned, with its program -/
theorem exists_tunable (mode : PredMode) : ∃ (a : LLGPArgs) (m : LLGP), ValidFrom [] [.new a quiet] ∧ modelsAfter exactSolvers [.new a quiet] 0 = some m ∧ m.fk.Tunable ∧
    (∀ q < m.fk.Q, (m.fk.kernels.getD q (.identity none)).aperiodic) ∧ m.fk.D = 2 ∧ m.fk.Q = 2 ∧ m.fk.activeDims = [([0, 1], [0, 1])] := by
  obtain ⟨fk, ⟨h1, h2, h3, h4, h5, h6, h7⟩, h⟩ := exists_documented_grid
  have hd := h mode false none (by simp)
  obtain ⟨m₀, i1, i2, i3, i4, i5, -, i7, i8, i9⟩ := model_of_documented hd (mode := mode) (metrics := false) rfl rfl h1 h2 h3 h4 rfl
  obtain ⟨hv, -, m, hm, hf⟩ := new_program exactSolvers_fit (by norm_num) hd (by norm_num) rfl i9 i4
  obtain ⟨fk', g1, g2⟩ := setInputDim_fresh fk 2 hd.fresh
  rw [i9] at g1
  have g1 := Except.ok.inj g1
  have hQ : m.fk.Q = 2 := by rw [hf, g1]; show fk'.kernels.length = 2; rw [g2.klen, h1]; rfl
  have hap : ∀ q < m.fk.Q, (m.fk.kernels.getD q (.identity none)).aperiodic := by
    intro q hq
    rw [hQ] at hq
    rw [hf, g1, g2.kern q (by rw [h1]; exact hq), h1]
    interval_cases q <;> trivial
  refine ⟨_, m, hv, hm, ⟨?_, ?_, fun q hq => .inl (hap q hq)⟩, hap, by rw [hf]; exact i5, hQ, by rw [hf]; exact i7⟩
  · rw [hf, g1, g2.same]; exact h6
  · rw [hf, g1, g2.same]; exact h7

/-- hypotheses of C90: gradient descent on a model of two correlated outputs -/
example (mode : PredMode) : ∃ (a : LLGPArgs) (m : LLGP), exactSolvers.Fit ∧ ValidFrom [] [.new a quiet] ∧ modelsAfter exactSolvers [.new a quiet] 0 = some m ∧ m.fk.Tunable ∧
    quiet.Calm ∧ descent.Keeps ∧ m.fk.D = 2 ∧
    (∀ gs, ∀ y ∈ [descent.ask m.fk.optimizerArray gs, descent.point m.fk.optimizerArray gs], ∀ k ∈ (m.fk.setOptimizerArray y).kernels, k.PeriodOK) ∧
    ∃ (P : ℕ) (fk : FK), fk.Ready P ∧ fk.Tunable ∧ (∀ s ∈ fk.slots, s.logexp = true → 0 < fk.read s) := by
  obtain ⟨a, m, h1, h2, h3, h4, h5, -⟩ := exists_tunable mode
  obtain ⟨fks, hh, -⟩ := valid_extend exactSolvers_fit [.new a quiet] [] World.start (healthy_start _) h1
  have hP : ∃ P k, m.OK P ∧ 0 < m.nIt ∧ m.Current exactSolvers k ∧ m.fk.Sound := hh.at h2
  obtain ⟨P, k, q1, -, -, q4⟩ := hP
  have hx : m.fk.optimizerArray.length = m.fk.slots.length := List.length_map _
  obtain ⟨t1, t2, t3⟩ := tuned_valid q1.ready q4 h3 hx (periods_ok h4 _)
  exact ⟨a, m, exactSolvers_fit, h1, h2, h3, quiet_calm, descent_keeps, h5, fun gs y _ => periods_ok h4 y, P, m.fk.setOptimizerArray m.fk.optimizerArray, ready_retuned q1.ready t1, t3,
    fun s hs hl => read_pos (h3.stored q1.ready.wf) hx (by rw [← setOptimizerArray_slots m.fk m.fk.optimizerArray]; exact hs) hl⟩

end Verif
