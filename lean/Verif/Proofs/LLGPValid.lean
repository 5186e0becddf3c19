import Verif.Spec.LLGPValid
import Verif.Proofs.LLGPComplete

/-! Programs that use models as documented. -/

namespace Verif

theorem groupsOK_retuned {fk fk' : FK} (h : fk.GroupsOK) (hr : fk.Retuned fk') : fk'.GroupsOK := by
  have hQ : fk'.Q = fk.Q := hr.count
  refine ⟨?_, ?_, ?_, ?_, ?_, ?_⟩
  · rw [hr.input]; exact h.P
  · rw [hr.groups]; exact h.nodup
  · rw [hr.groups, hQ]; exact h.group
  · rw [hr.groups, hr.lmc, hr.lmcTotal]; exact h.lmc
  · rw [hr.groups, hr.indep, hr.lmcTotal, hr.slfmTotal]; exact h.indep
  · rw [hr.groups, hQ]
    intro g hg q hq
    rw [hr.dims q hq]
    exact h.members g hg q hq

theorem ready_retuned {fk fk' : FK} {P : ℕ} (h : fk.Ready P) (hr : fk.Retuned fk') : fk'.Ready P := by
  have hQ : fk'.Q = fk.Q := hr.count
  refine ⟨hr.wf, by rw [hQ]; exact h.kernel, by rw [hr.input]; exact h.input, h.Ppos, hr.valid, ?_, by rw [hr.groups]; exact h.bound⟩
  intro k hk
  obtain ⟨q, hq, rfl⟩ := mem_getD hk (.identity none)
  have hq' : q < fk.kernels.length := hr.count ▸ hq
  rw [hr.dims q hq', hr.groups]
  exact h.dims _ (getD_mem_of_lt hq' _)

theorem LLGP.OK.retuned {m : LLGP} {P : ℕ} (h : m.OK P) {fk' : FK} (hr : m.fk.Retuned fk') : ({ m with fk := fk' } : LLGP).OK P where
  gp := h.gp
  inputDim := h.inputDim
  outputDim := h.outputDim.trans hr.outputs.symm
  ready := ready_retuned h.ready hr
  groups := groupsOK_retuned h.groups hr
  data := by
    show DataOK fk'.D P m.gp.Xs m.gp.Ys
    rw [hr.outputs]
    exact h.data
  filled := h.filled
  keys := by
    show m.grids.map Prod.fst = fk'.activeDims.map Prod.fst
    rw [hr.groups]
    exact h.keys
  grid := h.grid

theorem LLGP.OK.of_core {m m' : LLGP} {P : ℕ} (h : m.OK P) (hc : ({ m' with kernel := none } : LLGP).core = ({ m with kernel := none } : LLGP).core) : m'.OK P := by
  obtain ⟨gp, fk, grids, pred, nIt, tol, me, ke, gr⟩ := m
  obtain ⟨gp', fk', grids', pred', nIt', tol', me', ke', gr'⟩ := m'
  simp only [LLGP.core, LLGP.mk.injEq, and_true] at hc
  obtain ⟨rfl, rfl, rfl, rfl, rfl, rfl⟩ := hc
  exact ⟨h.gp, h.inputDim, h.outputDim, h.ready, h.groups, h.data, h.filled, h.keys, h.grid⟩

theorem sound_posDef {m : LLGP} {P : ℕ} (h : m.OK P) (hs : m.fk.Sound) : (m.fk.covMat m.gp.Xs).PosDef :=
  covMat_posDef h.ready.wf h.data.inputs.len hs.kernels hs.kappa hs.noise

/-- the models that exist, in order, all up to date -/
structure Healthy (sv : Solvers) (fks : List FK) (w : World) : Prop where
  next : w.next = fks.length
  fresh : ∀ j, w.next ≤ j → w.heap j = none
  model : ∀ j fk, fks[j]? = some fk → ∃ m P k, w.heap j = some m ∧ m.OK P ∧ m.fk = fk ∧ 0 < m.nIt ∧ m.Current sv k
  sound : ∀ fk ∈ fks, fk.Sound

theorem core_parts {m m' : LLGP} (hc : ({ m' with kernel := none } : LLGP).core = ({ m with kernel := none } : LLGP).core) :
    m'.gp = m.gp ∧ m'.fk = m.fk ∧ m'.grids = m.grids ∧ m'.prediction = m.prediction ∧ m'.nIt = m.nIt ∧ m'.tol = m.tol := by
  simp only [LLGP.core, LLGP.mk.injEq, and_true] at hc
  exact hc

theorem new_completes {sv : Solvers} (hs : sv.Fit) {a : LLGPArgs} {P : ℕ} {fk fk' : FK} (hP : 0 < P) (hd : a.Documented P fk) (hn : 0 < a.traceIterations)
    (hf : fk.setInputDim P = .ok fk') {e : Env} (he : e.Calm) (hp : (e.debug = true ∨ a.metrics = true) → (fk'.covMat (padded P a.Xs)).PosDef) (u : Bool) (w : World) :
    ∃ m k c, execOp u sv (.new a e) w = (.ok (.model w.next), { w with heap := fun j => if j = w.next then some m else w.heap j, next := w.next + 1, caches := c }) ∧
      m.OK P ∧ m.fk = fk' ∧ 0 < m.nIt ∧ m.Current sv k := by
  obtain ⟨m, fk'', h1, h2, h3, h4, h5⟩ := llgpInit_documented hd hP
  rw [hf] at h3
  cases h3
  obtain ⟨f1, f2, f3, f4, -⟩ := init_fields h1
  obtain ⟨w', hw'⟩ := update_completes hs he.1 he.2 h2 (by rw [f4]; exact hn) (fun hdm => by
      rw [h4, h5]
      refine hp (hdm.imp id fun hm => ?_)
      by_contra hne
      rw [f3, if_neg hne] at hm
      exact hm rfl) (i := w.next) (w := { w with heap := fun j => if j = w.next then some m else w.heap j, next := w.next + 1 }) (if_pos rfl) u
  obtain ⟨m', k, c, g1, g2, g3, -⟩ := update_complete he.1 (w := { w with heap := fun j => if j = w.next then some m else w.heap j, next := w.next + 1 }) (if_pos rfl) hw'
  obtain ⟨p1, p2, p3, p4, p5, p6⟩ := core_parts g3
  refine ⟨m', k, c, ?_, h2.of_core g3, p2.trans h4, by rw [p5, f4]; exact hn, g2⟩
  unfold execOp
  simp only
  rw [py_bind, lift_run, h1]
  simp only
  rw [py_bind]
  unfold allocate
  simp only
  rw [py_bind, hw']
  simp only
  rw [g1]
  show (Except.ok _, _) = _
  congr 1
  unfold World.put
  simp only
  congr 1
  funext j
  by_cases ej : j = w.next
  · simp only [if_pos ej]
  · simp only [if_neg ej]

theorem set_completes {sv : Solvers} (hs : sv.Fit) {i : ℕ} {m : LLGP} {P : ℕ} {fk' : FK} (h : m.OK P) (hr : m.fk.Retuned fk') (hn : 0 < m.nIt)
    {e : Env} (he : e.Calm) (hp : (e.debug = true ∨ m.metrics ≠ none) → (fk'.covMat m.gp.Xs).PosDef) (u : Bool) {w : World} (hw : w.heap i = some m) :
    ∃ m' k c, execOp u sv (.set i fk' e) w = (.ok .unit, { w.put i m' with caches := c }) ∧ m'.OK P ∧ m'.fk = fk' ∧ 0 < m'.nIt ∧ m'.Current sv k ∧
      m'.gp = m.gp ∧ m'.grids = m.grids ∧ m'.prediction = m.prediction := by
  have hok := h.retuned hr
  obtain ⟨w', hw'⟩ := update_completes hs he.1 he.2 hok hn hp (i := i) (w := w.put i { m with fk := fk' }) (put_heap _ _ _) u
  obtain ⟨m', k, c, g1, g2, g3, -⟩ := update_complete he.1 (w := w.put i { m with fk := fk' }) (put_heap _ _ _) hw'
  obtain ⟨p1, p2, p3, p4, p5, p6⟩ := core_parts g3
  refine ⟨m', k, c, ?_, hok.of_core g3, p2, by rw [p5]; exact hn, g2, p1, p3, p4⟩
  unfold execOp
  simp only
  rw [py_bind, modify_run hw]
  simp only
  rw [py_bind, hw']
  simp only
  rw [g1, put_put]
  rfl

/-- if model `i` was set up by `s`, its functional kernel has the groups of the one it was made with -/
def Tracks (i : ℕ) (s : Option (LLGPArgs × Option FK)) (fks : List FK) : Prop :=
  ∀ a g, s = some (a, g) → ∃ P fk₀ fk₁ fk, a.Documented P fk₀ ∧ fk₀.setInputDim P = .ok fk₁ ∧ fks[i]? = some fk ∧ fk.activeDims = fk₁.activeDims

theorem setUp_cons (i : ℕ) (s : Option (LLGPArgs × Option FK)) (x : Op × Except PyErr Answer) (l : List (Op × Except PyErr Answer)) :
    setUp i s (x :: l) = setUp i (setUp i s [x]) l := by
  obtain ⟨op, r⟩ := x
  cases op <;> rfl

/-- one operation of a valid program -/
theorem healthy_step {sv : Solvers} (hs : sv.Fit) (op : Op) (ops : List Op) (fks : List FK) (w : World) (h : Healthy sv fks w) (hv : ValidFrom fks (op :: ops)) :
    ∃ fks', ValidFrom fks' ops ∧ (∀ rest, ValidFrom fks' rest → ValidFrom fks (op :: rest)) ∧ op.Works ∧ (op.Changes → ∃ a, (execOp true sv op w).1 = .ok a) ∧ Healthy sv fks' (execOp true sv op w).2 ∧
      ∀ i s, Tracks i s fks → Tracks i (setUp i s [(op, (execOp true sv op w).1)]) fks' := by
  cases op with
  | new a e =>
    obtain ⟨P, fk, fk', hP, hd, hn, hf, hsd, hc, hv'⟩ := hv
    have hpd : (fk'.covMat (padded P a.Xs)).PosDef := by
      obtain ⟨m, fk'', g1, g2, g3, g4, g5⟩ := llgpInit_documented hd hP
      rw [hf] at g3
      cases g3
      have := sound_posDef g2 (g4 ▸ hsd)
      rw [g4, g5] at this
      exact this
    obtain ⟨m, k, c, h1, h2, h3, h4, h5⟩ := new_completes hs hP hd hn hf hc (fun _ => hpd) true w
    refine ⟨fks ++ [fk'], hv', fun rest hr => ⟨P, fk, fk', hP, hd, hn, hf, hsd, hc, hr⟩, fun e' he' => by cases he'; exact hc.1, fun _ => by rw [h1]; exact ⟨_, rfl⟩, ?_, fun i s ht b g hb => ?_⟩
    rotate_left
    · rw [h1] at hb
      change (if w.next = i then some (a, none) else s) = _ at hb
      by_cases ei : w.next = i
      · rw [if_pos ei] at hb
        cases hb
        refine ⟨P, fk, fk', fk', hd, hf, ?_, rfl⟩
        rw [← ei, h.next]
        simp
      · rw [if_neg ei] at hb
        obtain ⟨P₁, f0, f1, f2, r1, r2, r3, r4⟩ := ht b g hb
        exact ⟨P₁, f0, f1, f2, r1, r2, by rw [List.getElem?_append_left (List.getElem?_eq_some_iff.1 r3).1]; exact r3, r4⟩
    rw [h1]
    refine ⟨?_, fun j hj => ?_, fun j f hj => ?_, fun f hf' => ?_⟩
    rotate_left 3
    · rcases List.mem_append.1 hf' with hf' | hf'
      · exact h.sound f hf'
      · rw [List.mem_singleton.1 hf']; exact hsd
    · show w.next + 1 = _
      rw [h.next]; simp
    · have hj' : w.next + 1 ≤ j := hj
      show (if j = w.next then some m else w.heap j) = none
      rw [if_neg (by omega)]
      exact h.fresh j (by omega)
    · rcases Nat.lt_trichotomy j fks.length with hlt | heq | hgt
      · rw [List.getElem?_append_left hlt] at hj
        obtain ⟨m', P', k', q1, q2⟩ := h.model j f hj
        refine ⟨m', P', k', ?_, q2⟩
        show (if j = w.next then some m else w.heap j) = _
        rw [if_neg (by rw [h.next]; omega)]
        exact q1
      · subst heq
        simp only [List.getElem?_concat_length, Option.some.injEq] at hj
        refine ⟨m, P, k, ?_, h2, h3.trans hj, h4, h5⟩
        show (if fks.length = w.next then some m else w.heap fks.length) = _
        rw [if_pos h.next.symm]
      · rw [List.getElem?_eq_none (by simp; omega)] at hj
        cases hj
  | set i fk' e =>
    obtain ⟨fk, hi, hr, hsd, hc, hv'⟩ := hv
    obtain ⟨m, P, k, q1, q2, q3, q4, q5⟩ := h.model i fk hi
    have hr' : m.fk.Retuned fk' := by rw [q3]; exact hr
    obtain ⟨m', k', c, h1, h2, h3, h4, h5, -⟩ := set_completes hs q2 hr' q4 hc (fun _ => sound_posDef (q2.retuned hr') hsd) true q1
    have hlt : i < fks.length := (List.getElem?_eq_some_iff.1 hi).1
    refine ⟨fks.set i fk', hv', fun rest hv'' => ⟨fk, hi, hr, hsd, hc, hv''⟩, fun e' he' => by cases he'; exact hc.1, fun _ => by rw [h1]; exact ⟨_, rfl⟩, ?_, fun j s ht b g hb => ?_⟩
    rotate_left
    · change (if i = j then s.map fun af => (af.1, some fk') else s) = _ at hb
      by_cases ei : i = j
      · subst ei
        rw [if_pos rfl] at hb
        cases s with
        | none => cases hb
        | some s =>
          cases hb
          obtain ⟨P₁, f0, f1, f2, r1, r2, r3, r4⟩ := ht s.1 s.2 rfl
          rw [hi] at r3
          cases r3
          exact ⟨P₁, f0, f1, fk', r1, r2, List.getElem?_set_self hlt, by rw [← r4, hr.groups]⟩
      · rw [if_neg ei] at hb
        obtain ⟨P₁, f0, f1, f2, r1, r2, r3, r4⟩ := ht b g hb
        exact ⟨P₁, f0, f1, f2, r1, r2, by rw [List.getElem?_set_ne ei]; exact r3, r4⟩
    rw [h1]
    refine ⟨?_, fun j hj => ?_, fun j f hj => ?_, fun f hf' => ?_⟩
    rotate_left 3
    · rcases List.mem_or_eq_of_mem_set hf' with hf' | rfl
      · exact h.sound f hf'
      · exact hsd
    · show w.next = _
      rw [h.next, List.length_set]
    · have hj' : w.next ≤ j := hj
      show (if j = i then some m' else w.heap j) = none
      rw [if_neg (by have := h.next; omega)]
      exact h.fresh j hj'
    · show ∃ m P k, (if j = i then some m' else w.heap j) = some m ∧ _
      by_cases ej : j = i
      · subst ej
        rw [List.getElem?_set_self hlt] at hj
        exact ⟨m', P, k', if_pos rfl, h2, h3.trans (Option.some.inj hj), h4, h5⟩
      · rw [List.getElem?_set_ne (Ne.symm ej)] at hj
        obtain ⟨m₁, P₁, k₁, r1, r2⟩ := h.model j f hj
        exact ⟨m₁, P₁, k₁, by rw [if_neg ej]; exact r1, r2⟩
  | optimize i =>
    refine ⟨fks, hv, fun _ h => h, (fun e' he' => by cases he'), fun _ => ⟨.unit, rfl⟩, ?_, fun j s ht => ht⟩
    refine ⟨h.next, fun j hj => ?_, fun j f hj => ?_, h.sound⟩
    · show (if j = i then (w.heap i).map _ else w.heap j) = none
      by_cases ej : j = i
      · rw [if_pos ej, ← ej, h.fresh j hj]; rfl
      · rw [if_neg ej]; exact h.fresh j hj
    · obtain ⟨m, P, k, q1, q2, q3, q4, q5⟩ := h.model j f hj
      show ∃ m P k, (if j = i then (w.heap i).map _ else w.heap j) = some m ∧ _
      by_cases ej : j = i
      · subst ej
        rw [if_pos rfl, q1]
        exact ⟨_, P, k, rfl, ⟨q2.gp, q2.inputDim, q2.outputDim, q2.ready, q2.groups, q2.data, q2.filled, q2.keys, q2.grid⟩, q3, q4, q5.kernel, q5.built, q5.solved⟩
      · rw [if_neg ej]
        exact ⟨m, P, k, q1, q2, q3, q4, q5⟩
  | ask i q e =>
    have : ∃ c, (execOp true sv (.ask i q e) w).2 = { w with caches := c } := OnlyCaches.ask true sv e i q w fun m hm => by
      by_cases hi : i < fks.length
      · obtain ⟨m', P, k, q1, q2, q3, q4, q5⟩ := h.model i fks[i] (List.getElem?_eq_getElem hi)
        rw [hm] at q1
        cases q1
        exact ⟨k, q5.kernel⟩
      · rw [h.fresh i (by rw [h.next]; omega)] at hm
        cases hm
    obtain ⟨c, hc⟩ := this
    refine ⟨fks, hv.2, fun _ h => ⟨hv.1, h⟩, fun e' he' => by cases he'; exact hv.1, fun hch => hch.elim, ?_, fun j s ht => ht⟩
    rw [hc]
    exact ⟨h.next, h.fresh, h.model, h.sound⟩

/-- a whole valid program -/
theorem healthy_program {sv : Solvers} (hs : sv.Fit) (ops : List Op) : ∀ (fks : List FK) (w : World), Healthy sv fks w → ValidFrom fks ops →
    Completed (ops.zip (history true sv ops w).1) ∧ (∀ op ∈ ops, op.Works) ∧ ∃ fks', Healthy sv fks' (history true sv ops w).2 ∧
      ∀ i s, Tracks i s fks → Tracks i (setUp i s (ops.zip (history true sv ops w).1)) fks' := by
  induction ops with
  | nil => intro fks w h _; exact ⟨(fun p hp => by cases hp), (fun op ho => by cases ho), fks, h, fun i s ht => ht⟩
  | cons op ops ih =>
    intro fks w h hv
    obtain ⟨fks', hv', -, hw, hok, hh, ht⟩ := healthy_step hs op ops fks w h hv
    obtain ⟨h1, h2, fks'', h3, h4⟩ := ih fks' _ hh hv'
    refine ⟨fun p hp hch => ?_, fun op' ho => ?_, fks'', h3, fun i s hs => ?_⟩
    · simp only [history, List.zip_cons_cons, List.mem_cons] at hp
      rcases hp with rfl | hp
      · exact hok hch
      · exact h1 p hp hch
    · rcases List.mem_cons.1 ho with rfl | ho
      · exact hw
      · exact h2 _ ho
    · simp only [history, List.zip_cons_cons]
      rw [setUp_cons]
      exact h4 i _ (ht i s hs)

theorem healthy_history {sv : Solvers} (hs : sv.Fit) (ops : List Op) (fks : List FK) (w : World) (h : Healthy sv fks w) (hv : ValidFrom fks ops) :
    Completed (ops.zip (history true sv ops w).1) ∧ (∀ op ∈ ops, op.Works) ∧ ∃ fks', Healthy sv fks' (history true sv ops w).2 :=
  let ⟨h1, h2, fks', h3, _⟩ := healthy_program hs ops fks w h hv
  ⟨h1, h2, fks', h3⟩

/-- a valid program can be continued with anything that is valid for the models it leaves -/
theorem valid_extend {sv : Solvers} (hs : sv.Fit) : ∀ (ops : List Op) (fks : List FK) (w : World), Healthy sv fks w → ValidFrom fks ops →
    ∃ fks', Healthy sv fks' (history true sv ops w).2 ∧ ∀ rest, ValidFrom fks' rest → ValidFrom fks (ops ++ rest)
  | [], fks, _, h, _ => ⟨fks, h, fun _ hr => hr⟩
  | op :: ops, fks, w, h, hv => by
    obtain ⟨fks₁, hv', hext, -, -, hh, -⟩ := healthy_step hs op ops fks w h hv
    obtain ⟨fks', h1, h2⟩ := valid_extend hs ops fks₁ _ hh hv'
    exact ⟨fks', h1, fun rest hr => hext _ (h2 rest hr)⟩

theorem healthy_start (sv : Solvers) : Healthy sv [] World.start := ⟨rfl, fun _ _ => rfl, (fun j fk h => by simp at h), (fun fk h => by cases h)⟩

/-- a model that exists after a valid program -/
theorem Healthy.at {sv : Solvers} {fks : List FK} {w : World} (h : Healthy sv fks w) {i : ℕ} {m : LLGP} (hm : w.heap i = some m) :
    ∃ P k, m.OK P ∧ 0 < m.nIt ∧ m.Current sv k ∧ m.fk.Sound := by
  by_cases hi : i < fks.length
  · obtain ⟨m', P, k, q1, q2, q3, q4, q5⟩ := h.model i fks[i] (List.getElem?_eq_getElem hi)
    rw [hm] at q1
    cases q1
    exact ⟨P, k, q2, q4, q5, by rw [q3]; exact h.sound _ (List.getElem_mem hi)⟩
  · rw [h.fresh i (by rw [h.next]; omega)] at hm
    cases hm

end Verif
