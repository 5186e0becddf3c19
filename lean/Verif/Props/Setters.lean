import Verif.Proofs.SettersStale
import Verif.Props.Optimizer

/-! C92: assignments to the noise and the coregionalization parameters of a functional kernel. -/

namespace Verif

/-- Assignments to the properties of a kernel, in any order and number, when the shapes fit: nothing raises, every array contains the (broadcast) value it was given
last, or what it contained if it was given none, and nothing else about the kernel changes. -/
theorem C92_reads (fk : FK) (ss : List Setting) (h : ∀ s ∈ ss, s.Fits fk) :
    ∃ fk', fk.applyAll ss = (.ok (), fk') ∧ fk.SameBut fk' ∧
      ∀ t idx, IndexOf idx (fk.shapeAt t) → fk'.entry t idx = match lastGiven ss t with
        | some v => v.spread idx
        | none => fk.entry t idx := by
  obtain ⟨fk', h1, h2, h3⟩ := applyAll_ok ss fk h
  exact ⟨fk', h1, h2, fun t idx hi => h3 t idx hi⟩

/-- a kernel with two outputs and two coregionalization matrices -/
noncomputable def settersFK : FK :=
  ⟨2, [.rbf 1 none, .matern32 1 none], [⟨1, 2, [1, 2]⟩, ⟨2, 2, [1, 0, 0, 1]⟩], [[1, 1], [1, 1]], [0.1, 0.1], 2, 2, 2, 0, none, [], [], [], []⟩

/-- four assignments: a number for all noises, vectors (a row for two rows), the second noise again; the last value counts -/
example : ∃ ss : List Setting, ss = [.noise ⟨[], [5]⟩, .vecs [⟨[1, 2], [3, 4]⟩, ⟨[2], [6, 7]⟩], .diags [⟨[2], [8, 9]⟩], .noise ⟨[2], [10, 11]⟩] ∧ (∀ s ∈ ss, s.Fits settersFK) ∧
    lastGiven ss .noise = some ⟨[2], [10, 11]⟩ ∧ (⟨[2], [6, 7]⟩ : NDArr ℝ).spread [0, 1] = 7 ∧ lastGiven ss (.diag 1) = none := by
  refine ⟨_, rfl, ?_, rfl, by simp [NDArr.spread, readPos], rfl⟩
  intro s hs t v ht hv
  simp only [List.mem_cons, List.not_mem_nil, or_false] at hs
  rcases hs with rfl | rfl | rfl | rfl
  · cases t with
    | noise => cases hv; trivial
    | vec q => cases hv
    | diag q => cases hv
  · cases t with
    | noise => cases hv
    | vec q =>
      have hq : q < 2 := ht
      interval_cases q <;> cases hv <;> simp [BroadcastsTo, Aligned, FK.shapeAt, settersFK]
    | diag q => cases hv
  · cases t with
    | noise => cases hv
    | vec q => cases hv
    | diag q =>
      have hq : q < 2 := ht
      interval_cases q
      · cases hv; simp [BroadcastsTo, Aligned, FK.shapeAt, settersFK]
      · cases hv
  · cases t with
    | noise => cases hv; simp [BroadcastsTo, Aligned, FK.shapeAt, settersFK]
    | vec q => cases hv
    | diag q => cases hv

/-- An exception ends a list of assignments: those before it have taken place, those after it have no effect. -/
theorem C92_stops (s : Setting) (rest : List Setting) (x : PyErr) (fk₁ fk₂ : FK) (h2 : fk₁.apply s = (.error x, fk₂)) : ∀ (ss : List Setting) (fk : FK), fk.applyAll ss = (.ok (), fk₁) →
    fk.applyAll (ss ++ s :: rest) = (.error x, fk₂)
  | [], fk, h1 => by
    cases h1
    show (match fk₁.apply s with
      | (.ok _, fk') => fk'.applyAll rest
      | (.error e, fk') => (.error e, fk')) = _
    rw [h2]
  | t :: ss, fk, h1 => by
    have h1 : (match fk.apply t with
      | (.ok _, fk') => fk'.applyAll ss
      | (.error e, fk') => (.error e, fk')) = (.ok (), fk₁) := h1
    show (match fk.apply t with
      | (.ok _, fk') => fk'.applyAll (ss ++ s :: rest)
      | (.error e, fk') => (.error e, fk')) = _
    rcases ht : fk.apply t with ⟨r, fk'⟩
    rw [ht] at h1
    cases r with
    | ok u => exact C92_stops s rest x fk₁ fk₂ h2 ss fk' h1
    | error y => cases congrArg Prod.fst h1

/-- If a value has the wrong shape the assignment is a `ValueError`. The arrays before it in the list have their new values, the others keep theirs. -/
theorem C92_rejects (fk : FK) (s : Setting) (q : ℕ) (t : Target) (v : NDArr ℝ) (hq : (s.pairs fk)[q]? = some (t, v)) (hbad : ¬ BroadcastsTo v.shape (fk.shapeAt t))
    (hfirst : ∀ p ∈ (s.pairs fk).take q, BroadcastsTo p.2.shape (fk.shapeAt p.1)) :
    ∃ fk', fk.apply s = (.error .valueError, fk') ∧ fk.SameBut fk' ∧ (∀ t' idx, IndexOf idx (fk.shapeAt t') → (∀ v', (t', v') ∉ (s.pairs fk).take q) → fk'.entry t' idx = fk.entry t' idx) ∧
      ∀ t' v', (t', v') ∈ (s.pairs fk).take q → ∀ idx, IndexOf idx (fk.shapeAt t') → fk'.entry t' idx = v'.spread idx := by
  have hmem : ∀ p ∈ (s.pairs fk).take q, fk.has p.1 ∧ BroadcastsTo p.2.shape (fk.shapeAt p.1) := fun p hp =>
    ⟨((mem_settingPairs fk s p.1 p.2).1 (List.mem_of_mem_take hp)).1, hfirst p hp⟩
  obtain ⟨fk', h1, h2, h3⟩ := assignAll_ok _ fk hmem
  have hlt : q < (s.pairs fk).length := (List.getElem?_eq_some_iff.1 hq).1
  have hsplit : s.pairs fk = (s.pairs fk).take q ++ (t, v) :: (s.pairs fk).drop (q + 1) := by
    have h0 := (List.getElem?_eq_some_iff.1 hq).2
    rw [← h0, List.getElem_cons_drop hlt, List.take_append_drop]
  have hval : ∀ ps : List (Target × NDArr ℝ), ∀ t' v', lastIn ps t' = some v' → (t', v') ∈ ps := by
    intro ps
    induction ps with
    | nil => intro t' v' h; cases h
    | cons p ps ih =>
      intro t' v' h
      unfold lastIn at h
      cases hl : lastIn ps t' with
      | some w =>
        rw [hl] at h
        cases h
        exact List.mem_cons_of_mem _ (ih t' _ hl)
      | none =>
        rw [hl] at h
        by_cases e : t' = p.1
        · rw [if_pos e] at h
          cases h
          rw [e]
          exact List.mem_cons_self
        · rw [if_neg e] at h
          cases h
  have hnone : ∀ ps : List (Target × NDArr ℝ), ∀ t' v', (t', v') ∈ ps → lastIn ps t' ≠ none := by
    intro ps
    induction ps with
    | nil => intro t' v' h; cases h
    | cons p ps ih =>
      intro t' v' h
      unfold lastIn
      rcases List.mem_cons.1 h with rfl | h
      · rw [if_pos rfl]
        cases lastIn ps t' <;> simp
      · cases hl : lastIn ps t' with
        | some w => simp
        | none => exact absurd hl (ih t' v' h)
  refine ⟨fk', ?_, h2, fun t' idx hi hn => ?_, fun t' v' hm idx hi => ?_⟩
  · unfold FK.apply
    rw [hsplit, assignAll_append _ _ _ _ h1]
    unfold FK.assignAll
    rw [assign_error (by rw [h2.2.2.2]; exact hbad)]
  · rw [h3 t' idx hi]
    cases hl : lastIn ((s.pairs fk).take q) t' with
    | none => rfl
    | some w => exact absurd (hval _ _ _ hl) (hn w)
  · rw [h3 t' idx hi]
    cases hl : lastIn ((s.pairs fk).take q) t' with
    | none => exact absurd hl (hnone _ _ _ hm)
    | some w =>
      have hw := ((mem_settingPairs fk s t' w).1 (List.mem_of_mem_take (hval _ _ _ hl))).2
      have hv := ((mem_settingPairs fk s t' v').1 (List.mem_of_mem_take hm)).2
      rw [hw] at hv
      cases hv
      rfl

/-- three numbers for two outputs, in the second place -/
example : ((Setting.diags [⟨[2], [8, 9]⟩, ⟨[3], [1, 2, 3]⟩]).pairs settersFK)[1]? = some (.diag 1, ⟨[3], [1, 2, 3]⟩) ∧ ¬ BroadcastsTo [3] (settersFK.shapeAt (.diag 1)) ∧
    ∀ p ∈ ((Setting.diags [⟨[2], [8, 9]⟩, ⟨[3], [1, 2, 3]⟩]).pairs settersFK).take 1, BroadcastsTo p.2.shape (settersFK.shapeAt p.1) := by
  refine ⟨by simp [Setting.pairs, settersFK, List.range_succ], by simp [BroadcastsTo, Aligned, FK.shapeAt, settersFK], ?_⟩
  simp [Setting.pairs, settersFK, List.range_succ, BroadcastsTo, Aligned, FK.shapeAt]

/-- When the kernel is that of a model of a program that uses its models as documented, and the values are valid, the assignment returns and does what a (valid) program does that gives
the model new parameters; afterwards the model has the assigned values. What is missing for all values: arrays that are no parameters must get the values they have, see `C92_violated`. -/
theorem C92_updates_partial (sv : Solvers) (hs : sv.Fit) (pre : List Op) (hv : ValidFrom [] pre) (i : ℕ) (m : LLGP) (hm : modelsAfter sv pre i = some m) (hl : m.fk.Linked) (es : ℕ → Env)
    (hes : ∀ k, (es k).Calm) (s : Setting) (hf : s.Fits m.fk) (hp : s.Proper m.fk) :
    ∃ sets m', (∀ op ∈ sets, ∃ fk e, op = Op.set i fk e) ∧ ValidFrom [] (pre ++ sets) ∧
      settingM true sv es i s (history true sv pre World.start).2 = (.ok (), (history true sv (pre ++ sets) World.start).2) ∧
      modelsAfter sv (pre ++ sets) i = some m' ∧ m.fk.SameBut m'.fk ∧
      ∀ t idx, IndexOf idx (m.fk.shapeAt t) → m'.fk.entry t idx = match s.value t with
        | some v => v.spread idx
        | none => m.fk.entry t idx := by
  obtain ⟨fks, hh, hext⟩ := valid_extend hs pre [] World.start (healthy_start sv) hv
  have hproper : Proper m.fk (s.pairs m.fk) := by
    rintro ⟨t, v⟩ hmem
    obtain ⟨h1, h2⟩ := (mem_settingPairs m.fk s t v).1 hmem
    obtain ⟨p1, p2, p3⟩ := hp t v h1 h2
    refine ⟨h1, hf t v h1 h2, fun hn => p1 ?_, p2, p3⟩
    cases t with
    | noise => cases hn
    | vec q =>
      simp only [FK.links, decide_eq_false_iff_not] at hn
      show ¬ q < m.fk.numLmcTotal + m.fk.numSlfmTotal
      rw [← hl.1]
      exact hn
    | diag q =>
      simp only [FK.links, decide_eq_false_iff_not] at hn
      show ¬ q < m.fk.numLmcTotal
      rw [← hl.2]
      exact hn
  obtain ⟨sets, fks', m', fk', c1, c2, c3, c4, c5, c6, c7⟩ := assignAllM_valid hs hes (s.pairs m.fk) 0 fks _ m hh hm hl hproper
  obtain ⟨fk'', d1, d2, d3⟩ := apply_ok hf
  have hfk : fk' = fk'' := by
    have : m.fk.apply s = (.ok (), fk') := c6
    rw [d1] at this
    exact (Prod.mk.inj this).2.symm
  refine ⟨sets, m', c1, ?_, ?_, ?_, by rw [c7, hfk]; exact d2, fun t idx hi => ?_⟩
  · have := hext _ (c4 [] trivial)
    rwa [List.append_nil] at this
  · unfold settingM
    rw [py_bind, self_run hm]
    simp only
    rw [c2, history_append]
  · unfold modelsAfter
    rw [history_append]
    exact c5
  · rw [c7, hfk]
    exact d3 t idx hi

/-- new noises for a model with two outputs -/
example (mode : PredMode) : ∃ (a : LLGPArgs) (m : LLGP), exactSolvers.Fit ∧ ValidFrom [] [.new a quiet] ∧ modelsAfter exactSolvers [.new a quiet] 0 = some m ∧ m.fk.Linked ∧ quiet.Calm ∧
    (Setting.noise ⟨[2], [0.5, 0.25]⟩).Fits m.fk ∧ (Setting.noise ⟨[2], [0.5, 0.25]⟩).Proper m.fk := by
  obtain ⟨a, m, h1, h2, h3, h4, h5, -⟩ := exists_tunable mode
  obtain ⟨fks, hh, -⟩ := valid_extend exactSolvers_fit [.new a quiet] [] World.start (healthy_start _) h1
  have hP : ∃ P k, m.OK P ∧ 0 < m.nIt ∧ m.Current exactSolvers k ∧ m.fk.Sound := hh.at h2
  obtain ⟨P, k, q1, -, -, q4⟩ := hP
  have hn : m.fk.noise.length = 2 := by rw [q1.ready.wf.noise, h5]
  refine ⟨a, m, exactSolvers_fit, h1, h2, ⟨h3.vecs, h3.diags⟩, quiet_calm, fun t v ht hv => ?_, fun t v ht hv => ?_⟩
  · cases t with
    | noise => cases hv; simp [BroadcastsTo, Aligned, FK.shapeAt, hn]
    | vec q => cases hv
    | diag q => cases hv
  · cases t with
    | noise =>
      cases hv
      refine ⟨fun h => absurd trivial h, fun _ i hi => ?_, fun q hq => absurd hq (by simp)⟩
      rw [h5] at hi
      interval_cases i <;> norm_num [NDArr.spread, readPos]
    | vec q => cases hv
    | diag q => cases hv

/-- The missing part is false of the code: a model with one independent GP of variance 1 and noise 0.1, made by the public constructors. Its variance is assigned the value 4, which is
a valid value. If the covariance was asked for before, the answer stays the old one; if not, it is the new one. -/
theorem C92_violated : ∃ (fk : FK) (m : LLGP), fkNew (fun q i j => i + j) ⟨some 1, some [], some [], none, some [.rbf 1 none], none⟩ = .ok fk ∧
    ValidFrom [] [.new (tinyArgs fk) quiet] ∧ modelsAfter exactSolvers [.new (tinyArgs fk) quiet] 0 = some m ∧ (Setting.diags [⟨[1], [4]⟩]).Fits m.fk ∧
    ∃ old new wa wb, old.get 0 0 = 1.1 ∧ new.get 0 0 = 4.1 ∧
      (history true exactSolvers [.new (tinyArgs fk) quiet, .ask 0 .covariance quiet] World.start).1 = [.ok (.model 0), .ok (.matrix old)] ∧
      settingM true exactSolvers (fun _ => quiet) 0 (.diags [⟨[1], [4]⟩]) (history true exactSolvers [.new (tinyArgs fk) quiet, .ask 0 .covariance quiet] World.start).2 = (.ok (), wa) ∧
      (askM true exactSolvers quiet 0 .covariance wa).1 = .ok (.matrix old) ∧
      settingM true exactSolvers (fun _ => quiet) 0 (.diags [⟨[1], [4]⟩]) (history true exactSolvers [.new (tinyArgs fk) quiet] World.start).2 = (.ok (), wb) ∧
      (askM true exactSolvers quiet 0 .covariance wb).1 = .ok (.matrix new) := by
  obtain ⟨fk, hk, hD, hn, hκ, hB, hw, hf, hld, hl1, hl2, hnew⟩ := exists_tinyIndep
  obtain ⟨m₀, hdoc, hdim, hinit, ht⟩ := tiny_from hk hD hn hκ hB hw hf
  obtain ⟨fk', g1, g2⟩ := setInputDim_fresh fk 1 hf
  rw [hdim] at g1
  have hfk : m₀.fk = fk' := by cases g1; rfl
  have hv : ValidFrom [] [.new (tinyArgs fk) quiet] := ⟨1, fk, m₀.fk, by norm_num, hdoc, by norm_num [tinyArgs], hdim, ht.sound, quiet_calm, trivial⟩
  obtain ⟨m, w, hr, hc, hm, htm, hmf⟩ := tiny_created exactSolvers_fit hinit ht
  have hw1 : (history true exactSolvers [.new (tinyArgs fk) quiet] World.start).2 = w := by
    show (execOp true exactSolvers (.new (tinyArgs fk) quiet) World.start).2 = w
    rw [hr]
  have hκm : m.fk.coregDiags = [[1]] := by rw [hmf, hfk, g2.same]; exact hκ
  have hlm : m.fk.linkedDiags = 0 := by rw [hmf, hfk, g2.same]; exact hld
  obtain ⟨r1, r2, r3, r4⟩ := tiny_reassigned htm hκm (by rw [hmf, hfk, g2.same]; exact hl1) (by rw [hmf, hfk, g2.same]; exact hl2)
  obtain ⟨l, d1, d2⟩ := dense_ok htm.ok (sound_posDef htm.ok htm.sound)
  obtain ⟨l', d1', d2'⟩ := dense_ok r2 (sound_posDef r2 r3)
  have hpairs : (Setting.diags [⟨[1], [4]⟩]).pairs m.fk = [(.diag 0, ⟨[1], [4]⟩)] := by simp [Setting.pairs, hκm, List.range_succ]
  have hlinks : m.fk.links (.diag 0) = false := by simp [FK.links, hlm]
  have hrows : (m.gp.Xs.map Arr2.rows).sum = 2 := by rw [htm.xs]; rfl
  have hask := covariance_fresh (sv := exactSolvers) (e := quiet) hm hc d1
  refine ⟨fk, m, hnew, hv, by unfold modelsAfter; rw [hw1]; exact hm, ?_, l.K, l'.K,
    ({ w with caches := { Caches.empty with dense := some (0, l) } } : World).put 0 { m with fk := { m.fk with coregDiags := [[4]] } },
    w.put 0 { m with fk := { m.fk with coregDiags := [[4]] } }, ?_, ?_, ?_, ?_, ?_, ?_, ?_⟩
  · intro t v ht' hval
    cases t with
    | noise => cases hval
    | vec q => cases hval
    | diag q =>
      have hq : q < 1 := by
        have : q < m.fk.coregDiags.length := ht'
        rwa [hκm] at this
      interval_cases q
      cases hval
      simp [BroadcastsTo, Aligned, FK.shapeAt, hκm]
  · rw [d2.K, Arr2.of_get (by rw [hrows]; norm_num) (by rw [hrows]; norm_num), tiny_first htm.xs htm.kernels htm.noise, htm.coreg]
    norm_num
  · rw [d2'.K, Arr2.of_get (by show 0 < (m.gp.Xs.map Arr2.rows).sum; rw [hrows]; norm_num) (by show 0 < (m.gp.Xs.map Arr2.rows).sum; rw [hrows]; norm_num),
      (tiny_first (fk := { m.fk with coregDiags := [[4]] }) htm.xs htm.kernels htm.noise :), r4]
    norm_num
  · show [(execOp true exactSolvers (.new (tinyArgs fk) quiet) World.start).1, (askM true exactSolvers quiet 0 .covariance (execOp true exactSolvers (.new (tinyArgs fk) quiet) World.start).2).1] = _
    rw [hr, hask]
  · show settingM true exactSolvers (fun _ => quiet) 0 (.diags [⟨[1], [4]⟩]) (askM true exactSolvers quiet 0 .covariance (execOp true exactSolvers (.new (tinyArgs fk) quiet) World.start).2).2 = _
    rw [hr, hask]
    exact setting_unlinked (w := { w with caches := { Caches.empty with dense := some (0, l) } }) hm hpairs hlinks r1
  · exact covariance_cached (put_heap _ _ _) rfl
  · rw [hw1]
    exact setting_unlinked hm hpairs hlinks r1
  · rw [covariance_fresh (put_heap _ _ _) hc d1']

end Verif
