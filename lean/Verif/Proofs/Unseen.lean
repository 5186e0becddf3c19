import Verif.Spec.Unseen
import Verif.Proofs.LLGPExplained
import Verif.Proofs.LLGPValid
import Verif.Proofs.Shared

/-! Proofs for C100: answers do not depend on random numbers, pools, logging and diagnostics. -/

namespace Verif

theorem starmap_same {α β : Type} {p p' : PoolArg} {f : α → Except PyErr β} {ls : List α} [hβ : Nonempty β] (hp : p.Works ls.length) (hp' : p'.Works ls.length)
    (hu : (∀ x ∈ ls, ∃ y, f x = .ok y) ∨ ∃ z, ∀ x ∈ ls, f x = .error z) : starmap p f ls = starmap p' f ls := by
  by_cases hl : ls = []
  · subst hl
    obtain ⟨g⟩ := hβ
    rw [starmap_ok (g := fun _ => g) hp (fun x hx => by cases hx), starmap_ok (g := fun _ => g) hp' (fun x hx => by cases hx)]
  rcases hu with hu | ⟨z, hz⟩
  · have : ∃ g : α → β, ∀ x ∈ ls, f x = .ok (g x) := by
      classical
      obtain ⟨x0, hx0⟩ := List.exists_mem_of_ne_nil ls hl
      obtain ⟨y0, -⟩ := hu x0 hx0
      refine ⟨fun x => if h : x ∈ ls then (hu x h).choose else y0, fun x hx => ?_⟩
      simp only [dif_pos hx]
      exact (hu x hx).choose_spec
    obtain ⟨g, hg⟩ := this
    rw [starmap_ok hp hg, starmap_ok hp' hg]
  · have key : ∀ p : PoolArg, p.Works ls.length → starmap p f ls = .error z := by
      intro p hp
      obtain ⟨x0, hx0⟩ := List.exists_mem_of_ne_nil ls hl
      obtain ⟨h1, h2⟩ := C64_starmap_raises f ls p hp
      obtain ⟨z', hz'⟩ := h1.2 ⟨x0, hx0, z, hz x0 hx0⟩
      obtain ⟨x, hx, hxe⟩ := h2 z' hz'
      rw [hz x hx] at hxe
      cases hxe
      unfold starmap
      rw [hz']
      rfl
    rw [key p hp, key p' hp']

theorem varOnTheFly_env {sv : Solvers} {m : LLGP} {e e' : Env} (he : e.Works) (he' : e'.Works) (Xs : List (Arr2 ℝ)) : m.varOnTheFly sv e Xs = m.varOnTheFly sv e' Xs := by
  unfold LLGP.varOnTheFly
  cases hK : kernelFromIndices Xs m.gp.Xs m.fk with
  | error z => rfl
  | ok KtX =>
    simp only [ok_bind]
    cases hk : m.theKernel with
    | error z => rfl
    | ok k =>
      simp only [ok_bind]
      congr 1
      refine starmap_same (by rw [List.length_range]; exact he _) (by rw [List.length_range]; exact he' _) ?_
      by_cases hbad : k.approx.K.rows ≠ k.approx.K.cols ∨ KtX.cols ≠ k.approx.K.rows
      · refine .inr ⟨.valueError, fun i _ => ?_⟩
        unfold iterativeSolve
        rw [if_pos (by rw [Arr2.row, vmk_length]; exact hbad)]
        rfl
      · refine .inl fun i _ => ?_
        unfold iterativeSolve
        rw [if_neg (by rw [Arr2.row, vmk_length]; exact hbad)]
        exact ⟨_, rfl⟩

theorem nu_same {sv : Solvers} (hs : sv.Fit) {m : LLGP} {P : ℕ} (h : m.OK P) (hm : m.prediction = .precompute) {k : LLKernel} (hc : m.Current sv k) {e e' : Env}
    (he : e.Works) (he' : e'.Works) (Xs : List (Arr2 ℝ)) (Ws : List (List ℕ × Arr2 ℝ)) : m.explained sv e Xs Ws = m.explained sv e' Xs Ws := by
  obtain ⟨f1, f2⟩ := explained_pre_fails (sv := sv) h hm e Xs Ws
  obtain ⟨f1', f2'⟩ := explained_pre_fails (sv := sv) h hm e' Xs Ws
  by_cases hl : m.fk.activeDims.length = 1
  · obtain ⟨g, hg⟩ := List.length_eq_one_iff.1 hl
    by_cases hg1 : g.1 = List.range P
    · obtain ⟨sol, hsol⟩ := exists_solvesTo hs (current_facts hs h hc).1 1e-4
      have hn : ∃ v, m.nu sv e = .ok v := ⟨_, nu_ok hs h hc hsol hg hg1 (he _)⟩
      obtain ⟨v, hv⟩ := hn
      unfold LLGP.explained
      rw [hm]
      simp only
      rw [hv, nu_env he he' hv]
    · rw [f2 g hg hg1, f2' g hg hg1]
  · rw [f1 hl, f1' hl]

/-- the answers of an up-to-date model do not depend on the working pool -/
theorem answer_env {sv : Solvers} (hs : sv.Fit) {m : LLGP} {P : ℕ} (h : m.OK P) {k : LLKernel} (hc : m.Current sv k) {e e' : Env} (he : e.Works) (he' : e'.Works)
    (q : Query) : m.answer sv e q = m.answer sv e' q := by
  have hx : ∀ Xs Ws, m.explained sv e Xs Ws = m.explained sv e' Xs Ws := by
    intro Xs Ws
    cases hm : m.prediction with
    | exact => unfold LLGP.explained; rw [hm]
    | precompute => exact nu_same hs h hm hc he he' Xs Ws
    | onTheFly => unfold LLGP.explained; rw [hm]; exact varOnTheFly_env he he' Xs
  have hr : m.rawPredict sv e = m.rawPredict sv e' := by
    funext Xs
    unfold LLGP.rawPredict
    simp only [hx]
  cases q <;> simp only [LLGP.answer, hr]

/-- nor on the number of trace iterations -/
theorem answer_same {sv : Solvers} (hs : sv.Fit) {m m' : LLGP} {P : ℕ} (h : m.OK P) {k k' : LLKernel} (hc : m.Current sv k) (hc' : m'.Current sv k')
    (h1 : m'.gp = m.gp) (h2 : m'.fk = m.fk) (h3 : m'.grids = m.grids) (h4 : m'.prediction = m.prediction) (h5 : m'.tol = m.tol) {e e' : Env} (he : e.Works)
    (he' : e'.Works) (q : Query) : m'.answer sv e' q = m.answer sv e q := by
  rw [answer_env hs h hc he he' q]
  have hc2 : ({ m with nIt := m'.nIt } : LLGP).Current sv k := ⟨hc.kernel, hc.built, hc.solved⟩
  have : m.answer sv e' q = ({ m with nIt := m'.nIt } : LLGP).answer sv e' q := by
    cases q <;> rfl
  rw [this]
  refine answer_congr hc' hc2 ?_ e' q
  simp only [LLGP.core, LLGP.mk.injEq, and_true]
  exact ⟨h1, h2, h3, h4, trivial, h5⟩

/-! ### two runs of a program -/

/-- the parts of a model its answers are made from (the rest of an up-to-date model is computed from them, or only recorded) -/
def LLGP.Visible (m m' : LLGP) : Prop := m'.gp = m.gp ∧ m'.fk = m.fk ∧ m'.grids = m.grids ∧ m'.prediction = m.prediction ∧ m'.tol = m.tol

theorem init_same {a a' : LLGPArgs} (h : a.SameModel a') {m m' : LLGP} (hm : llgpInit a = .ok m) (hm' : llgpInit a' = .ok m') : m.Visible m' := by
  obtain ⟨Xs, Ys, nz, lo, hi, gm, me, pr, ti, tol, fk⟩ := a
  obtain ⟨Xs', Ys', nz', lo', hi', gm', me', pr', ti', tol', fk'⟩ := a'
  obtain ⟨h1, h2, h3, h4, h5, h6, h7, h8, h9⟩ := h
  simp only at h1 h2 h3 h4 h5 h6 h7 h8 h9
  subst h1 h2 h3 h4 h5 h6 h7 h8 h9
  unfold llgpInit at hm hm'
  rw [bind_ok] at hm hm'
  obtain ⟨gp, g1, hm⟩ := hm
  obtain ⟨gp', g1', hm'⟩ := hm'
  simp only at g1 g1' hm hm'
  rw [g1] at g1'
  cases g1'
  cases fk' with
  | none => cases hm
  | some fk =>
    simp only at hm hm'
    cases hp : predMode pr' with
    | none => rw [hp] at hm; cases hm
    | some mode =>
      rw [hp] at hm hm'
      simp only [bind_ok, pure_ok] at hm hm'
      obtain ⟨f, e1, g, e2, e3⟩ := hm
      obtain ⟨f', e1', g', e2', e3'⟩ := hm'
      rw [e1] at e1'
      cases e1'
      rw [e2] at e2'
      cases e2'
      rw [← e3, ← e3']
      exact ⟨rfl, rfl, rfl, rfl, rfl⟩

theorem new_model {sv : Solvers} {a : LLGPArgs} {e : Env} (he : e.Works) {w w' : World} {ans : Answer} (h : execOp true sv (.new a e) w = (.ok ans, w')) :
    ∃ m₀ m c, llgpInit a = .ok m₀ ∧ ans = .model w.next ∧ w' = { w with heap := fun j => if j = w.next then some m else w.heap j, next := w.next + 1, caches := c } ∧
      m₀.Visible m := by
  unfold execOp at h
  rw [py_bind_ok] at h
  obtain ⟨m, w1, h1, h⟩ := h
  rw [lift_run] at h1
  obtain ⟨hi, rfl⟩ := Prod.mk.inj h1
  rw [py_bind_ok] at h
  obtain ⟨j, w2, h2, h⟩ := h
  obtain ⟨hj, rfl⟩ := Prod.mk.inj h2
  cases hj
  rw [py_bind_ok] at h
  obtain ⟨_, w3, h3, h⟩ := h
  obtain ⟨ha, rfl⟩ := Prod.mk.inj h
  cases ha
  obtain ⟨m', k, c, rfl, -, g3, -⟩ := update_complete he (m := m) (if_pos rfl) h3
  obtain ⟨p1, p2, p3, p4, -, p6⟩ := core_parts g3
  refine ⟨m, m', c, hi, rfl, ?_, p1, p2, p3, p4, p6⟩
  unfold World.put
  simp only
  congr 1
  funext j
  by_cases ej : j = w.next
  · simp only [if_pos ej]
  · simp only [if_neg ej]

theorem set_model {sv : Solvers} {i : ℕ} {fk : FK} {e : Env} (he : e.Works) {w w' : World} {m : LLGP} (hm : w.heap i = some m) {ans : Answer}
    (h : execOp true sv (.set i fk e) w = (.ok ans, w')) :
    ∃ m' c, ans = .unit ∧ w' = { w.put i m' with caches := c } ∧ ({ m with fk := fk } : LLGP).Visible m' := by
  unfold execOp at h
  rw [py_bind_ok] at h
  obtain ⟨_, w1, h1, h⟩ := h
  rw [modify_run hm] at h1
  obtain ⟨-, rfl⟩ := Prod.mk.inj h1
  rw [py_bind_ok] at h
  obtain ⟨_, w3, h3, h⟩ := h
  obtain ⟨ha, rfl⟩ := Prod.mk.inj h
  cases ha
  obtain ⟨m', k, c, rfl, -, g3, -⟩ := update_complete he (m := { m with fk := fk }) (put_heap _ _ _) h3
  obtain ⟨p1, p2, p3, p4, -, p6⟩ := core_parts g3
  refine ⟨m', c, rfl, ?_, p1, p2, p3, p4, p6⟩
  rw [put_put]

/-- the same models, as far as the answers can tell -/
structure SameWorld (w w' : World) : Prop where
  next : w'.next = w.next
  none : ∀ j, w.heap j = none → w'.heap j = none
  some : ∀ j m, w.heap j = some m → ∃ m', w'.heap j = some m' ∧ m.Visible m'

theorem ask_missing (sv : Solvers) (e : Env) (i : ℕ) (q : Query) (w : World) (h : w.heap i = none) : (askM true sv e i q w).1 = .error .runtimeError := by
  have hs : self i w = (.error .runtimeError, w) := by
    unfold self
    rw [h]
  have hd : denseM true i w = (.error .runtimeError, w) := by
    unfold denseM cachedCall
    rw [h]
  cases q with
  | predict Xs =>
    simp only [askM, publicPredict, py_bind, hs]
  | quantiles Xs qs =>
    simp only [askM, publicPredict, py_bind, hs]
  | covariance => simp only [askM, py_bind, hd]
  | logDet => simp only [askM, logDetM, py_bind, hd]
  | normalQuadratic => simp only [askM, normalQuadraticM, py_bind, hs]
  | logLikelihood => simp only [askM, logLikelihoodM, py_bind, hd]

theorem rerun_valid {ops ops' : List Op} (h : List.Forall₂ Op.Rerun ops ops') : ∀ fks, ValidFrom fks ops → ValidFrom fks ops' := by
  induction h with
  | nil => exact fun _ h => h
  | cons hop _ ih =>
    intro fks hv
    cases hop with
    | new hs hn hc =>
      obtain ⟨P, fk, fk', hP, hd, -, hf, hsd, -, hv⟩ := hv
      refine ⟨P, fk, fk', hP, ?_, hn, hf, hsd, hc, ih _ hv⟩
      obtain ⟨h1, h2, h3, h4, h5, h6, h7, h8, h9⟩ := hs
      obtain ⟨d1, d2, d3, d4, d5, d6, d7, d8, d9, d10, d11, d12, d13, d14, d15, d16, d17⟩ := hd
      exact ⟨by rw [h1, h2]; exact d1, by rw [h1]; exact d2, by rw [h2]; exact d3, by rw [h2]; exact d4, by rw [h9]; exact d5, d6, d7, d8, by rw [h1]; exact d9, d10, d11,
        by rw [h7]; exact d12, by rw [h4]; exact d13, by rw [h5]; exact d14, by rw [h6]; exact d15, by rw [h6]; exact d16, by rw [h1, h4, h5]; exact d17⟩
    | set hc =>
      obtain ⟨fk, hi, hr, hsd, -, hv⟩ := hv
      exact ⟨fk, hi, hr, hsd, hc, ih _ hv⟩
    | optimize => exact ih _ hv
    | ask hw => exact ⟨hw, ih _ hv.2⟩

/-- one operation in two runs -/
theorem rerun_step {sv : Solvers} (hs : sv.Fit) {op op' : Op} (hop : op.Rerun op') {ops ops' : List Op} {fks fks' : List FK} {w w' : World} (hh : Healthy sv fks w)
    (hh' : Healthy sv fks' w') (hcw : CachesOK sv w) (hcw' : CachesOK sv w') (hv : ValidFrom fks (op :: ops)) (hv' : ValidFrom fks' (op' :: ops')) (hS : SameWorld w w') :
    (execOp true sv op' w').1 = (execOp true sv op w).1 ∧ SameWorld (execOp true sv op w).2 (execOp true sv op' w').2 := by
  obtain ⟨-, -, -, hwk, hok, -⟩ := healthy_step hs op ops fks w hh hv
  obtain ⟨-, -, -, hwk', hok', -⟩ := healthy_step hs op' ops' fks' w' hh' hv'
  cases hop with
  | @new a a' e e' hsm hn hc =>
    obtain ⟨x, hx⟩ := hok trivial
    obtain ⟨x', hx'⟩ := hok' trivial
    rcases hr : execOp true sv (.new a e) w with ⟨r, w₁⟩
    rcases hr' : execOp true sv (.new a' e') w' with ⟨r', w₁'⟩
    rw [hr] at hx
    rw [hr'] at hx'
    simp only at hx hx'
    subst hx hx'
    obtain ⟨m₀, m, c, i1, i2, i3, i4⟩ := new_model (hwk e rfl) hr
    obtain ⟨m₀', m', c', j1, j2, j3, j4⟩ := new_model (hwk' e' rfl) hr'
    have hV := init_same hsm i1 j1
    rw [i2, j2, i3, j3, hS.next]
    refine ⟨rfl, ⟨rfl, fun j hj => ?_, fun j b hj => ?_⟩⟩
    · simp only at hj ⊢
      by_cases ej : j = w.next
      · rw [if_pos ej] at hj; cases hj
      · rw [if_neg ej] at hj ⊢; exact hS.none j hj
    · simp only at hj ⊢
      by_cases ej : j = w.next
      · rw [if_pos ej] at hj ⊢
        cases hj
        exact ⟨m', rfl, j4.1.trans (hV.1.trans i4.1.symm), j4.2.1.trans (hV.2.1.trans i4.2.1.symm), j4.2.2.1.trans (hV.2.2.1.trans i4.2.2.1.symm),
          j4.2.2.2.1.trans (hV.2.2.2.1.trans i4.2.2.2.1.symm), j4.2.2.2.2.trans (hV.2.2.2.2.trans i4.2.2.2.2.symm)⟩
      · rw [if_neg ej] at hj ⊢; exact hS.some j b hj
  | @set i fk e e' hc =>
    obtain ⟨x, hx⟩ := hok trivial
    obtain ⟨x', hx'⟩ := hok' trivial
    obtain ⟨f, hf, -⟩ := hv
    obtain ⟨m, P, k, q1, q2, q3, q4, q5⟩ := hh.model i f hf
    obtain ⟨m', q1', hV⟩ := hS.some i m q1
    rcases hr : execOp true sv (.set i fk e) w with ⟨r, w₁⟩
    rcases hr' : execOp true sv (.set i fk e') w' with ⟨r', w₁'⟩
    rw [hr] at hx
    rw [hr'] at hx'
    simp only at hx hx'
    subst hx hx'
    obtain ⟨n, c, i2, i3, i4⟩ := set_model (hwk e rfl) q1 hr
    obtain ⟨n', c', j2, j3, j4⟩ := set_model (hwk' e' rfl) q1' hr'
    rw [i2, j2, i3, j3]
    refine ⟨rfl, ⟨hS.next, fun j hj => ?_, fun j b hj => ?_⟩⟩
    · simp only [World.put] at hj ⊢
      by_cases ej : j = i
      · rw [if_pos ej] at hj; cases hj
      · rw [if_neg ej] at hj ⊢; exact hS.none j hj
    · simp only [World.put] at hj ⊢
      by_cases ej : j = i
      · rw [if_pos ej] at hj ⊢
        cases hj
        exact ⟨n', rfl, j4.1.trans (hV.1.trans i4.1.symm), j4.2.1.trans i4.2.1.symm, j4.2.2.1.trans (hV.2.2.1.trans i4.2.2.1.symm),
          j4.2.2.2.1.trans (hV.2.2.2.1.trans i4.2.2.2.1.symm), j4.2.2.2.2.trans (hV.2.2.2.2.trans i4.2.2.2.2.symm)⟩
      · rw [if_neg ej] at hj ⊢; exact hS.some j b hj
  | @optimize i =>
    refine ⟨rfl, ⟨hS.next, fun j hj => ?_, fun j b hj => ?_⟩⟩
    · change (if j = i then (w.heap i).map _ else w.heap j) = none at hj
      show (if j = i then (w'.heap i).map _ else w'.heap j) = none
      by_cases ej : j = i
      · rw [if_pos ej] at hj ⊢
        rw [hS.none i (by simpa using hj)]; rfl
      · rw [if_neg ej] at hj ⊢; exact hS.none j hj
    · change (if j = i then (w.heap i).map _ else w.heap j) = _ at hj
      show ∃ m', (if j = i then (w'.heap i).map _ else w'.heap j) = some m' ∧ _
      by_cases ej : j = i
      · rw [if_pos ej] at hj ⊢
        cases hwi : w.heap i with
        | none => rw [hwi] at hj; cases hj
        | some m =>
          rw [hwi] at hj
          cases hj
          obtain ⟨m', q1, hV⟩ := hS.some i m hwi
          rw [q1]
          exact ⟨_, rfl, hV⟩
      · rw [if_neg ej] at hj ⊢; exact hS.some j b hj
  | @ask i q e e' hw =>
    show (askM true sv e' i q w').1 = (askM true sv e i q w).1 ∧ SameWorld (askM true sv e i q w).2 (askM true sv e' i q w').2
    have keep : ∀ {fks : List FK} {w : World} {e : Env}, Healthy sv fks w → ∃ c, (askM true sv e i q w).2 = { w with caches := c } := fun {fks w e} hh =>
      OnlyCaches.ask true sv e i q w fun m hm => by
        obtain ⟨P, k, -, -, q5, -⟩ := hh.at hm
        exact ⟨k, q5.kernel⟩
    obtain ⟨c, hc⟩ := keep hh (e := e)
    obtain ⟨c', hc'⟩ := keep hh' (e := e')
    refine ⟨?_, by rw [hc, hc']; exact ⟨hS.next, hS.none, hS.some⟩⟩
    cases hwi : w.heap i with
    | none => rw [ask_missing sv e i q w hwi, ask_missing sv e' i q w' (hS.none i hwi)]
    | some m =>
      obtain ⟨m', hwi', hV⟩ := hS.some i m hwi
      obtain ⟨P, k, ok, -, cur, -⟩ := hh.at hwi
      obtain ⟨P', k', -, -, cur', -⟩ := hh'.at hwi'
      obtain ⟨_, e1⟩ := ask_answer hcw (hwk e rfl) hwi cur.kernel q
      obtain ⟨_, e2⟩ := ask_answer hcw' hw hwi' cur'.kernel q
      rw [e1, e2]
      exact answer_same hs ok cur cur' hV.1 hV.2.1 hV.2.2.1 hV.2.2.2.1 hV.2.2.2.2 (hwk e rfl) hw q

theorem rerun_history {sv : Solvers} (hs : sv.Fit) {ops ops' : List Op} (h : List.Forall₂ Op.Rerun ops ops') : ∀ {fks fks' : List FK} {w w' : World}, Healthy sv fks w →
    Healthy sv fks' w' → CachesOK sv w → CachesOK sv w' → ValidFrom fks ops → ValidFrom fks' ops' → SameWorld w w' →
    (history true sv ops' w').1 = (history true sv ops w).1 := by
  induction h with
  | nil => intros; rfl
  | @cons op op' ops ops' hop _ ih =>
    intro fks fks' w w' hh hh' hcw hcw' hv hv' hS
    obtain ⟨f1, v1, -, k1, -, g1, -⟩ := healthy_step hs op ops fks w hh hv
    obtain ⟨f2, v2, -, k2, -, g2, -⟩ := healthy_step hs op' ops' fks' w' hh' hv'
    obtain ⟨r1, r2⟩ := rerun_step hs hop hh hh' hcw hcw' hv hv' hS
    simp only [history]
    rw [r1, ih g1 g2 (cachesOK_op k1 hcw) (cachesOK_op k2 hcw') v1 v2 r2]

/-! ### diagnostics can fail -/

/-- an update with debug logging or metrics that returns has factored the exact covariance matrix -/
theorem update_needs {sv : Solvers} {e : Env} (he : e.Works) {m : LLGP} {P : ℕ} (h : m.OK P) {i : ℕ} {w w' : World} (hw : w.heap i = some m)
    (hu : parametersChanged true sv e i w = (.ok (), w')) (hd : e.debug = true ∨ m.metrics ≠ none) : (m.fk.covMat m.gp.Xs).PosDef := by
  by_contra hnp
  have hdense : m.dense = .error .linAlgError := (exactLMC_contents h.ready h.data).2 hnp
  rw [(Agree.parametersChanged sv true false e i w trivial).1] at hu
  unfold parametersChanged at hu
  rw [py_bind_ok] at hu
  obtain ⟨_, w1, h1, hu⟩ := hu
  obtain ⟨-, rfl⟩ := Prod.mk.inj h1
  rw [py_bind_ok] at hu
  obtain ⟨_, w2, h2, hu⟩ := hu
  have hw1 : ({ w with caches := Caches.empty } : World).heap i = some m := hw
  rcases replace_outcome sv e hw1 with ⟨Kg, kd, gr, k1, k2, k3, -, k5⟩ | ⟨y, w'', hb, -⟩
  swap
  · rw [hb] at h2
    cases (Prod.mk.inj h2).1
  rw [k5] at h2
  obtain ⟨-, rfl⟩ := Prod.mk.inj h2
  have hms := (approxFirst_facts he k2).2
  set m1 := m.replaced Kg kd gr with hm1
  have hd1 : m1.dense = .error .linAlgError := hdense
  rw [py_bind_ok] at hu
  obtain ⟨_, w3, h3, hu⟩ := hu
  obtain ⟨-, rfl⟩ := Prod.mk.inj h3
  rw [py_bind_ok] at hu
  obtain ⟨_, w4, h4, hu⟩ := hu
  have hput : (World.put ({ w with caches := Caches.empty } : World) i m1).heap i = some m1 := put_heap _ _ _
  by_cases hdb : e.debug = true
  · unfold debugMessages at h4
    rw [if_pos hdb, py_bind] at h4
    obtain ⟨c, hc⟩ := reads_logLik (i := i) (m := m1) _ hput
    rw [hc, hd1] at h4
    cases (Prod.mk.inj h4).1
  · unfold debugMessages at h4
    rw [if_neg hdb] at h4
    obtain ⟨-, rfl⟩ := Prod.mk.inj h4
    have hmm := hd.resolve_left hdb
    have hmm1 : m1.metrics ≠ none := by
      rcases hms with ⟨q1, -⟩ | ⟨y, a, b, -, q2⟩
      · exact absurd q1 hmm
      · show kd.2.2 ≠ none
        rw [q2]; simp
    rw [py_bind_ok] at hu
    obtain ⟨_, w5, h5, hu⟩ := hu
    unfold storeGradient at h5
    rw [py_bind, self_run hput] at h5
    simp only at h5
    rw [py_bind_ok] at h5
    obtain ⟨k, w6, h6, h5⟩ := h5
    rw [lift_run] at h6
    obtain ⟨-, rfl⟩ := Prod.mk.inj h6
    rw [py_bind_ok] at h5
    obtain ⟨g, w7, h7, h5⟩ := h5
    rw [lift_run] at h7
    obtain ⟨-, rfl⟩ := Prod.mk.inj h7
    rw [modify_run hput] at h5
    obtain ⟨-, rfl⟩ := Prod.mk.inj h5
    rw [py_bind_ok] at hu
    obtain ⟨_, w8, h8, hu⟩ := hu
    obtain ⟨-, rfl⟩ := Prod.mk.inj h8
    unfold recordMetrics at hu
    obtain ⟨m2, hm2⟩ : ∃ m2 : LLGP, m2 = { m1 with grad := some g } := ⟨_, rfl⟩
    have hk2 : ∃ k, m2.theKernel = .ok k := by rw [hm2]; exact ⟨_, rfl⟩
    have hd2 : m2.dense = .error .linAlgError := by rw [hm2]; exact hdense
    have hx2 : m2.metrics ≠ none := by rw [hm2]; exact hmm1
    rw [← hm2] at hu
    have hput2 := put_heap (World.put ({ w with caches := Caches.empty } : World) i m1) i m2
    rw [py_bind, self_run hput2] at hu
    simp only at hu
    obtain ⟨x, hx⟩ := Option.ne_none_iff_exists'.1 hx2
    rw [hx] at hu
    simp only at hu
    obtain ⟨k, hk⟩ := hk2
    rw [py_bind, lift_run, hk] at hu
    simp only at hu
    rw [py_bind] at hu
    have r1 : Reads i m2 (denseM false i) m2.dense := Reads.cached _ _ _ i _
    obtain ⟨c, hc⟩ := r1 _ hput2
    rw [hc, hd2] at hu
    cases (Prod.mk.inj hu).1

end Verif
