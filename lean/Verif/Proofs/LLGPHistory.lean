import Verif.Proofs.LLGPAnswer
import Verif.Proofs.LLGPUpdate
import Verif.Proofs.LLGPExample
import Verif.Spec.LLGPState

/-! Completed updates and histories of them. -/

namespace Verif

/-- every series got one more entry -/
def MetricsGrown (x x' : Option Metrics) : Prop :=
  (x = none ∧ x' = none) ∨ ∃ m a b c d f, x = some m ∧
    x' = some ⟨m.iterations ++ [a], m.gradNorms ++ [b], m.gradError ++ [c], m.solvError ++ [d], m.logLikely ++ [f]⟩

/-- `x` changes nothing but caches, whether it returns or raises, in the states satisfying `P` (which do not depend on the caches) -/
def OnlyCaches {α : Type} (P : (ℕ → Option LLGP) → Prop) (x : PyM α) : Prop := ∀ w, P w.heap → ∃ c, (x w).2 = { w with caches := c }

theorem OnlyCaches.bind {α β : Type} {P : (ℕ → Option LLGP) → Prop} {x : PyM α} {f : α → PyM β} (h1 : OnlyCaches P x) (h2 : ∀ a, OnlyCaches P (f a)) :
    OnlyCaches P (x >>= f) := by
  intro w hw
  rw [py_bind]
  obtain ⟨c, hc⟩ := h1 w hw
  rcases h : x w with ⟨r, w'⟩
  rw [h] at hc
  simp only at hc
  subst hc
  cases r with
  | error e => exact ⟨c, rfl⟩
  | ok a =>
    obtain ⟨c', hc'⟩ := h2 a { w with caches := c } hw
    exact ⟨c', hc'⟩

theorem OnlyCaches.pure {α : Type} {P : (ℕ → Option LLGP) → Prop} (a : α) : OnlyCaches P (pure a : PyM α) := fun w _ => ⟨w.caches, rfl⟩
theorem OnlyCaches.lift {α : Type} {P : (ℕ → Option LLGP) → Prop} (x : Except PyErr α) : OnlyCaches P (PyM.lift x) := fun w _ => ⟨w.caches, rfl⟩
theorem OnlyCaches.checkpoint {P : (ℕ → Option LLGP) → Prop} (e : Env) (k : ℕ) : OnlyCaches P (checkpoint e k) := fun w _ => ⟨w.caches, rfl⟩
theorem OnlyCaches.self {P : (ℕ → Option LLGP) → Prop} (i : ℕ) : OnlyCaches P (self i) := fun w _ => ⟨w.caches, rfl⟩
theorem OnlyCaches.clear {P : (ℕ → Option LLGP) → Prop} : OnlyCaches P clearCaches := fun _ _ => ⟨_, rfl⟩
theorem OnlyCaches.cached {α : Type} {P : (ℕ → Option LLGP) → Prop} (u : Bool) (get : Caches → Option (ℕ × α)) (set : Option (ℕ × α) → Caches → Caches)
    (compute : LLGP → Except PyErr α) (i : ℕ) : OnlyCaches P (cachedCall u get set compute i) := fun w _ => cached_snd u get set compute i w

theorem OnlyCaches.logLik {P : (ℕ → Option LLGP) → Prop} (u : Bool) (i : ℕ) : OnlyCaches P (logLikelihoodM u i) :=
  (OnlyCaches.cached u _ _ _ i).bind fun _ => (OnlyCaches.self i).bind fun _ => OnlyCaches.lift _

theorem OnlyCaches.logDet {P : (ℕ → Option LLGP) → Prop} (u : Bool) (i : ℕ) : OnlyCaches P (logDetM u i) :=
  (OnlyCaches.cached u _ _ _ i).bind fun _ => OnlyCaches.pure _

theorem OnlyCaches.quadratic {P : (ℕ → Option LLGP) → Prop} (i : ℕ) : OnlyCaches P (normalQuadraticM i) :=
  (OnlyCaches.self i).bind fun _ => OnlyCaches.lift _

theorem OnlyCaches.debug {P : (ℕ → Option LLGP) → Prop} (u : Bool) (e : Env) (i : ℕ) : OnlyCaches P (debugMessages u e i) := by
  unfold debugMessages
  split_ifs
  · exact (OnlyCaches.logLik u i).bind fun _ => (OnlyCaches.quadratic i).bind fun _ => (OnlyCaches.logDet u i).bind fun _ => OnlyCaches.pure _
  · exact OnlyCaches.pure _

theorem OnlyCaches.explained {P : (ℕ → Option LLGP) → Prop} (u : Bool) (sv : Solvers) (e : Env) (i : ℕ) (m : LLGP) (Xs : List (Arr2 ℝ)) (Ws : List (List ℕ × Arr2 ℝ)) :
    OnlyCaches P (explainedM u sv e i m Xs Ws) := by
  unfold explainedM
  cases m.prediction with
  | exact => exact (OnlyCaches.cached u _ _ _ i).bind fun _ => OnlyCaches.lift _
  | precompute => exact (OnlyCaches.cached u _ _ _ i).bind fun _ => OnlyCaches.lift _
  | onTheFly => exact OnlyCaches.lift _

/-- the object, if it exists, has a kernel -/
def HasKernel (i : ℕ) (heap : ℕ → Option LLGP) : Prop := ∀ m, heap i = some m → ∃ k, m.kernel = some k

theorem OnlyCaches.raw (u : Bool) (sv : Solvers) (e : Env) (i : ℕ) (Xs : List (Arr2 ℝ)) : OnlyCaches (HasKernel i) (rawPredictM u sv e i Xs) := by
  have h1 : OnlyCaches (HasKernel i) (ensureKernel u sv e i) := by
    intro w hw
    unfold ensureKernel
    rw [py_bind]
    unfold Verif.self
    cases hm : w.heap i with
    | none => exact ⟨w.caches, rfl⟩
    | some m =>
      obtain ⟨k, hk⟩ := hw m hm
      simp only [hk]
      exact ⟨w.caches, rfl⟩
  exact h1.bind fun _ => (OnlyCaches.cached u _ _ _ i).bind fun _ => (OnlyCaches.cached u _ _ _ i).bind fun _ => (OnlyCaches.self i).bind fun _ =>
    (OnlyCaches.lift _).bind fun _ => (OnlyCaches.explained u sv e i _ Xs _).bind fun _ => OnlyCaches.lift _

theorem OnlyCaches.publicPredict {α : Type} (u : Bool) (sv : Solvers) (e : Env) (i : ℕ)
    (method : MultiGP → (List (Arr2 ℝ) → Except PyErr Predicted) → Except PyErr α) (Xs : List (NDArr ℝ)) :
    OnlyCaches (HasKernel i) (publicPredict u sv e i method Xs) := by
  unfold Verif.publicPredict
  refine (OnlyCaches.self i).bind fun m => ?_
  cases padDims m.gp.inputDim Xs with
  | error _ => exact OnlyCaches.lift _
  | ok Xs' =>
    simp only
    split_ifs
    · intro w hw
      obtain ⟨c, hc⟩ := OnlyCaches.raw u sv e i Xs' w hw
      exact ⟨c, hc⟩
    · exact OnlyCaches.lift _

theorem OnlyCaches.ask (u : Bool) (sv : Solvers) (e : Env) (i : ℕ) (q : Query) : OnlyCaches (HasKernel i) (askM u sv e i q) := by
  cases q with
  | predict Xs => exact (OnlyCaches.publicPredict u sv e i _ Xs).bind fun _ => OnlyCaches.pure _
  | quantiles Xs qs => exact (OnlyCaches.publicPredict u sv e i _ Xs).bind fun _ => OnlyCaches.pure _
  | covariance => exact (OnlyCaches.cached u _ _ _ i).bind fun _ => OnlyCaches.pure _
  | logDet => exact (OnlyCaches.logDet u i).bind fun _ => OnlyCaches.pure _
  | normalQuadratic => exact (OnlyCaches.quadratic i).bind fun _ => OnlyCaches.pure _
  | logLikelihood => exact (OnlyCaches.logLik u i).bind fun _ => OnlyCaches.pure _

/-! ### completed updates -/

theorem only_ok {α : Type} {P : (ℕ → Option LLGP) → Prop} {x : PyM α} (h : OnlyCaches P x) {w w' : World} {r : Except PyErr α} (hw : P w.heap) (hx : x w = (r, w')) :
    ∃ c, w' = { w with caches := c } := by
  obtain ⟨c, hc⟩ := h w hw
  rw [hx] at hc
  exact ⟨c, hc⟩

theorem put_caches (w : World) (i : ℕ) (m : LLGP) (c : Caches) : ({ w with caches := c } : World).put i m = { w.put i m with caches := c } := rfl

theorem store_ok {i : ℕ} {w w' : World} {m : LLGP} (h : w.heap i = some m) (hr : storeGradient i w = (.ok (), w')) : ∃ g, w' = w.put i { m with grad := some g } := by
  unfold storeGradient at hr
  rw [py_bind_ok] at hr
  obtain ⟨m', w1, h1, hr⟩ := hr
  rw [self_run h] at h1
  cases h1
  rw [py_bind_ok] at hr
  obtain ⟨k, w2, h2, hr⟩ := hr
  rw [lift_run] at h2
  obtain ⟨h2, rfl⟩ := Prod.mk.inj h2
  rw [py_bind_ok] at hr
  obtain ⟨g, w3, h3, hr⟩ := hr
  rw [lift_run] at h3
  obtain ⟨h3, rfl⟩ := Prod.mk.inj h3
  rw [modify_run h] at hr
  exact ⟨g, (Prod.mk.inj hr).2.symm⟩

theorem record_ok {u : Bool} {e : Env} {i : ℕ} {w w' : World} {m : LLGP} (h : w.heap i = some m) (hr : recordMetrics u e i w = (.ok (), w')) :
    (m.metrics = none ∧ w' = w) ∨ ∃ x a b c cs, m.metrics = some x ∧
      w' = { w.put i (m.withMetrics (some { x with gradNorms := x.gradNorms ++ [a], gradError := x.gradError ++ [b], logLikely := x.logLikely ++ [c] })) with caches := cs } := by
  unfold recordMetrics at hr
  rw [py_bind_ok] at hr
  obtain ⟨m', w1, h1, hr⟩ := hr
  rw [self_run h] at h1
  cases h1
  cases hx : m.metrics with
  | none =>
    rw [hx] at hr
    exact .inl ⟨rfl, (congrArg Prod.snd hr).symm⟩
  | some x =>
    right
    rw [hx] at hr
    simp only at hr
    rw [py_bind_ok] at hr
    obtain ⟨k, w2, h2, hr⟩ := hr
    rw [lift_run] at h2
    obtain ⟨-, rfl⟩ := Prod.mk.inj h2
    rw [py_bind_ok] at hr
    obtain ⟨exl, w3, h3, hr⟩ := hr
    obtain ⟨c3, rfl⟩ := only_ok (P := fun _ => True) (OnlyCaches.cached u _ _ _ i) trivial h3
    rw [py_bind_ok] at hr
    obtain ⟨ag, w4, h4, hr⟩ := hr
    rw [lift_run] at h4
    obtain ⟨-, rfl⟩ := Prod.mk.inj h4
    rw [py_bind_ok] at hr
    obtain ⟨eg, w5, h5, hr⟩ := hr
    rw [lift_run] at h5
    obtain ⟨-, rfl⟩ := Prod.mk.inj h5
    rw [py_bind_ok] at hr
    obtain ⟨ne, w6, h6, hr⟩ := hr
    rw [lift_run] at h6
    obtain ⟨-, rfl⟩ := Prod.mk.inj h6
    rw [py_bind_ok] at hr
    obtain ⟨_, w7, h7, hr⟩ := hr
    rw [modify_run (w := { w with caches := c3 }) (m := m) h] at h7
    obtain ⟨-, rfl⟩ := Prod.mk.inj h7
    rw [py_bind_ok] at hr
    obtain ⟨_, w8, h8, hr⟩ := hr
    rw [checkpoint_run] at h8
    obtain ⟨-, rfl⟩ := Prod.mk.inj h8
    rw [py_bind_ok] at hr
    obtain ⟨ll, w9, h9, hr⟩ := hr
    obtain ⟨c9, rfl⟩ := only_ok (P := fun _ => True) (OnlyCaches.logLik u i) trivial h9
    rw [← put_caches, modify_run (put_heap _ i _)] at hr
    obtain ⟨-, rfl⟩ := Prod.mk.inj hr
    refine ⟨x, ne.1, ne.2, ll.getD 0, c9, rfl, ?_⟩
    rw [put_caches, put_put]
    simp only [LLGP.withMetrics, hx, Option.map_some]
    rfl

/-- A completed update: object `i` is up to date, got one entry in every metric series, and nothing else changed (but the caches). -/
theorem update_complete {sv : Solvers} {u : Bool} {e : Env} (he : e.Works) {i : ℕ} {w w' : World} {m : LLGP} (h : w.heap i = some m)
    (hr : parametersChanged u sv e i w = (.ok (), w')) :
    ∃ m' k c, w' = { w.put i m' with caches := c } ∧ m'.Current sv k ∧ ({ m' with kernel := none } : LLGP).core = ({ m with kernel := none } : LLGP).core ∧
      MetricsGrown m.metrics m'.metrics := by
  unfold parametersChanged at hr
  rw [py_bind_ok] at hr
  obtain ⟨_, w1, h1, hr⟩ := hr
  obtain ⟨-, rfl⟩ := Prod.mk.inj h1
  rw [py_bind_ok] at hr
  obtain ⟨_, w2, h2, hr⟩ := hr
  rcases replace_outcome sv e (w := { w with caches := Caches.empty }) h with ⟨Kg, kd, grads, k1, k2, k3, -, k5⟩ | ⟨x, w3, hx, -⟩
  swap
  · rw [hx] at h2
    cases congrArg Prod.fst h2
  rw [k5] at h2
  obtain ⟨-, rfl⟩ := Prod.mk.inj h2
  obtain ⟨k, hk⟩ := replaced_current (grads := grads) he k1 k2
  have hms := (approxFirst_facts he k2).2
  rw [py_bind_ok] at hr
  obtain ⟨_, w3, h3, hr⟩ := hr
  rw [checkpoint_run] at h3
  obtain ⟨-, rfl⟩ := Prod.mk.inj h3
  rw [py_bind_ok] at hr
  obtain ⟨_, w4, h4, hr⟩ := hr
  obtain ⟨c4, rfl⟩ := only_ok (P := fun _ => True) (OnlyCaches.debug u e i) trivial h4
  rw [py_bind_ok] at hr
  obtain ⟨_, w5, h5, hr⟩ := hr
  obtain ⟨g, rfl⟩ := store_ok (m := m.replaced Kg kd grads) (if_pos rfl) h5
  rw [py_bind_ok] at hr
  obtain ⟨_, w6, h6, hr⟩ := hr
  rw [checkpoint_run] at h6
  obtain ⟨-, rfl⟩ := Prod.mk.inj h6
  have hcur : ∀ x, (({ m.replaced Kg kd grads with grad := some g } : LLGP).withMetrics x).Current sv k := fun x => ⟨hk.kernel, hk.built, hk.solved⟩
  rcases record_ok (put_heap _ i _) hr with ⟨e1, rfl⟩ | ⟨x, a, b, c, cs, e1, rfl⟩
  · refine ⟨{ m.replaced Kg kd grads with grad := some g }, k, c4, ?_, hcur _, rfl, ?_⟩
    · rw [put_caches, put_put]
      rfl
    · rcases hms with ⟨q1, q2⟩ | ⟨x, a, b, q1, q2⟩
      · exact .inl ⟨q1, q2⟩
      · rw [show ({ m.replaced Kg kd grads with grad := some g } : LLGP).metrics = kd.2.2 from rfl, q2] at e1
        cases e1
  · refine ⟨({ m.replaced Kg kd grads with grad := some g } : LLGP).withMetrics (some { x with gradNorms := x.gradNorms ++ [a], gradError := x.gradError ++ [b], logLikely := x.logLikely ++ [c] }),
      k, cs, ?_, hcur _, rfl, ?_⟩
    · rw [put_put]
      show { ((({ w with caches := Caches.empty } : World).put i (m.replaced Kg kd grads)).put i _) with caches := cs } = _
      rw [put_put]
      rfl
    · rcases hms with ⟨q1, q2⟩ | ⟨x', a', b', q1, q2⟩
      · rw [show ({ m.replaced Kg kd grads with grad := some g } : LLGP).metrics = kd.2.2 from rfl, q2] at e1
        cases e1
      · rw [show ({ m.replaced Kg kd grads with grad := some g } : LLGP).metrics = kd.2.2 from rfl, q2] at e1
        cases e1
        exact .inr ⟨x', a', a, b, b', c, q1, rfl⟩

/-! ### histories of completed updates -/

/-- what holds between completed operations, for object `i` with `n` updates and set-up `s` -/
structure Settled (sv : Solvers) (i n : ℕ) (s : Option (LLGPArgs × Option FK)) (w : World) : Prop where
  fresh : ∀ j, w.next ≤ j → w.heap j = none
  current : ∀ j m, w.heap j = some m → ∃ k, m.Current sv k
  count : ∀ m x, w.heap i = some m → m.metrics = some x → x.AllHave n
  absent : w.heap i = none → s = none
  present : ∀ m, w.heap i = some m → ∃ a o m₀, s = some (a, o) ∧ llgpInit a = .ok m₀ ∧ m.fk = o.getD m₀.fk ∧
    m.core = ({ m₀ with fk := m.fk, kernel := m.kernel } : LLGP).core ∧ m.metrics.isSome = a.metrics

theorem grown_some {x x' : Option Metrics} (h : MetricsGrown x x') : x'.isSome = x.isSome := by
  rcases h with ⟨e, e'⟩ | ⟨m, a, b, c, d, f, e1, e2⟩
  · rw [e, e']
  · rw [e1, e2]; rfl

theorem grown_count {x x' : Option Metrics} (h : MetricsGrown x x') {n : ℕ} (hn : ∀ y, x = some y → y.AllHave n) : ∀ y, x' = some y → y.AllHave (n + 1) := by
  intro y hy
  rcases h with ⟨-, e⟩ | ⟨m, a, b, c, d, f, e1, e2⟩
  · rw [e] at hy; cases hy
  · obtain ⟨h1, h2, h3, h4, h5⟩ := hn m e1
    rw [e2] at hy
    cases hy
    simp only [Metrics.AllHave, List.length_append, List.length_singleton, h1, h2, h3, h4, h5, and_self]

theorem settled_update {sv : Solvers} {i n : ℕ} {s : Option (LLGPArgs × Option FK)} {u : Bool} {e : Env} (he : e.Works) {j : ℕ} {w w' : World} {m : LLGP}
    (hm : w.heap j = some m) (hr : parametersChanged u sv e j w = (.ok (), w'))
    (fresh : ∀ j, w.next ≤ j → w.heap j = none)
    (current : ∀ j', j' ≠ j → ∀ m, w.heap j' = some m → ∃ k, m.Current sv k)
    (count : ∀ m x, w.heap i = some m → m.metrics = some x → x.AllHave n)
    (absent : w.heap i = none → s = none)
    (present : ∀ m, w.heap i = some m → ∃ a o m₀, s = some (a, o) ∧ llgpInit a = .ok m₀ ∧ m.fk = o.getD m₀.fk ∧
      m.core = ({ m₀ with fk := m.fk, kernel := m.kernel } : LLGP).core ∧ m.metrics.isSome = a.metrics) :
    Settled sv i (if j = i then n + 1 else n) s w' := by
  obtain ⟨m', k, c, rfl, hk, hc, hg⟩ := update_complete he hm hr
  have hj : j < w.next := by
    by_contra hlt
    rw [fresh j (not_lt.1 hlt)] at hm
    cases hm
  refine ⟨fun l hl => ?_, fun l ml hl => ?_, fun mi x hi hx => ?_, fun hi => ?_, fun mi hi => ?_⟩
  · have hl' : w.next ≤ l := hl
    show (if l = j then some m' else w.heap l) = none
    rw [if_neg (by omega)]
    exact fresh l hl'
  · change (if l = j then some m' else w.heap l) = some ml at hl
    by_cases e : l = j
    · rw [if_pos e] at hl
      cases hl
      exact ⟨k, hk⟩
    · rw [if_neg e] at hl
      exact current l e ml hl
  · change (if i = j then some m' else w.heap i) = some mi at hi
    by_cases e : j = i
    · subst e
      rw [if_pos rfl] at hi ⊢
      cases hi
      exact grown_count hg (fun y hy => count m y hm hy) x hx
    · rw [if_neg (Ne.symm e)] at hi
      rw [if_neg e]
      exact count mi x hi hx
  · change (if i = j then some m' else w.heap i) = none at hi
    by_cases e : i = j
    · rw [if_pos e] at hi; cases hi
    · rw [if_neg e] at hi
      exact absent hi
  · change (if i = j then some m' else w.heap i) = some mi at hi
    by_cases e : i = j
    · subst e
      rw [if_pos rfl] at hi
      cases hi
      obtain ⟨a, o, m₀, q1, q2, q3, q4, q5⟩ := present m hm
      have hfk : m'.fk = m.fk := by
        have := congrArg (fun x : LLGP => x.fk) hc
        exact this
      refine ⟨a, o, m₀, q1, q2, hfk.trans q3, ?_, (grown_some hg).trans q5⟩
      have e1 : m'.core = ({ m with kernel := m'.kernel } : LLGP).core := by
        have := congrArg (fun x : LLGP => { x with kernel := m'.kernel }) hc
        exact this
      rw [e1, hfk]
      exact congrArg (fun x : LLGP => { x with kernel := m'.kernel }) q4
    · rw [if_neg e] at hi
      exact present mi hi

theorem settled_caches {sv : Solvers} {i n : ℕ} {s : Option (LLGPArgs × Option FK)} {w : World} (h : Settled sv i n s w) (c : Caches) :
    Settled sv i n s { w with caches := c } := ⟨h.fresh, h.current, h.count, h.absent, h.present⟩

/-- one completed operation -/
theorem settled_step {sv : Solvers} {i n : ℕ} {s : Option (LLGPArgs × Option FK)} {w : World} (h : Settled sv i n s w) (op : Op) (hw : op.Works)
    (hok : op.Changes → ∃ a, (execOp true sv op w).1 = .ok a) :
    Settled sv i (updatesSince i n [(op, (execOp true sv op w).1)]) (setUp i s [(op, (execOp true sv op w).1)]) (execOp true sv op w).2 := by
  rcases hr : execOp true sv op w with ⟨r, w'⟩
  rw [hr] at hok
  cases op with
  | new a e =>
    obtain ⟨ans, rfl⟩ : ∃ a, r = .ok a := hok trivial
    unfold execOp at hr
    rw [py_bind_ok] at hr
    obtain ⟨m, w1, h1, hr⟩ := hr
    rw [lift_run] at h1
    obtain ⟨hinit, rfl⟩ := Prod.mk.inj h1
    rw [py_bind_ok] at hr
    obtain ⟨j, w2, h2, hr⟩ := hr
    obtain ⟨hj, rfl⟩ := Prod.mk.inj h2
    cases hj
    rw [py_bind_ok] at hr
    obtain ⟨_, w3, h3, hr⟩ := hr
    obtain ⟨ha, rfl⟩ := Prod.mk.inj hr
    cases ha
    have hf := init_fields hinit
    have hnone : w.heap w.next = none := h.fresh _ le_rfl
    have key := settled_update (sv := sv) (i := i) (n := if w.next = i then 0 else n) (s := if w.next = i then some (a, none) else s) (hw e rfl) (m := m) (if_pos rfl) h3
      (fun l hl => by
        have hl' : w.next + 1 ≤ l := hl
        show (if l = w.next then some m else w.heap l) = none
        rw [if_neg (by omega)]
        exact h.fresh l (by omega))
      (fun l hl ml hml => by
        change (if l = w.next then some m else w.heap l) = some ml at hml
        rw [if_neg hl] at hml
        exact h.current l ml hml)
      (fun mi x hi hx => by
        change (if i = w.next then some m else w.heap i) = some mi at hi
        by_cases ei : w.next = i
        · rw [if_pos ei]
          rw [if_pos ei.symm] at hi
          cases hi
          rw [hf.2.2.1] at hx
          split_ifs at hx
          cases hx
          exact ⟨rfl, rfl, rfl, rfl, rfl⟩
        · rw [if_neg ei]
          rw [if_neg (Ne.symm ei)] at hi
          exact h.count mi x hi hx)
      (fun hi => by
        change (if i = w.next then some m else w.heap i) = none at hi
        by_cases ei : w.next = i
        · rw [if_pos ei.symm] at hi; cases hi
        · rw [if_neg (Ne.symm ei)] at hi
          rw [if_neg ei]
          exact h.absent hi)
      (fun mi hi => by
        change (if i = w.next then some m else w.heap i) = some mi at hi
        by_cases ei : w.next = i
        · rw [if_pos ei.symm] at hi
          cases hi
          exact ⟨a, none, m, by rw [if_pos ei], hinit, rfl, rfl, by rw [hf.2.2.1]; cases a.metrics <;> rfl⟩
        · rw [if_neg (Ne.symm ei)] at hi
          rw [if_neg ei]
          exact h.present mi hi)
    have e1 : updatesSince i n [(Op.new a e, Except.ok (Answer.model w.next))] = if w.next = i then (if w.next = i then 0 else n) + 1 else if w.next = i then 0 else n := by
      by_cases ei : w.next = i
      · simp only [updatesSince, if_pos ei]
      · simp only [updatesSince, if_neg ei]
    simp only
    rw [e1]
    exact key
  | set j fk e =>
    obtain ⟨ans, rfl⟩ : ∃ a, r = .ok a := hok trivial
    unfold execOp at hr
    rw [py_bind_ok] at hr
    obtain ⟨_, w1, h1, hr⟩ := hr
    rw [py_bind_ok] at hr
    obtain ⟨_, w2, h2, hr⟩ := hr
    obtain ⟨-, rfl⟩ := Prod.mk.inj hr
    obtain ⟨-, rfl⟩ := Prod.mk.inj h1
    cases hj : w.heap j with
    | none =>
      exfalso
      unfold parametersChanged at h2
      rw [py_bind_ok] at h2
      obtain ⟨_, w3, h3, h2⟩ := h2
      obtain ⟨-, rfl⟩ := Prod.mk.inj h3
      rw [py_bind_ok] at h2
      obtain ⟨_, w4, h4, h2⟩ := h2
      unfold replaceKernel at h4
      rw [py_bind_ok] at h4
      obtain ⟨_, w5, h5, -⟩ := h4
      unfold Verif.self at h5
      simp only [if_true, hj, Option.map_none] at h5
      cases congrArg Prod.fst h5
    | some m =>
      have key := settled_update (sv := sv) (i := i) (n := n) (s := if j = i then s.map fun af => (af.1, some fk) else s) (hw e rfl) (m := { m with fk := fk })
        (by simp only [if_true, hj, Option.map_some]) h2
        (fun l hl => by
          show (if l = j then (w.heap j).map _ else w.heap l) = none
          by_cases el : l = j
          · rw [if_pos el, ← el, h.fresh l hl]; rfl
          · rw [if_neg el]
            exact h.fresh l hl)
        (fun l hl ml hml => by
          change (if l = j then (w.heap j).map _ else w.heap l) = some ml at hml
          rw [if_neg hl] at hml
          exact h.current l ml hml)
        (fun mi x hi hx => by
          change (if i = j then (w.heap j).map _ else w.heap i) = some mi at hi
          by_cases ei : i = j
          · rw [if_pos ei, hj] at hi
            cases hi
            exact h.count m x (ei ▸ hj) hx
          · rw [if_neg ei] at hi
            exact h.count mi x hi hx)
        (fun hi => by
          change (if i = j then (w.heap j).map _ else w.heap i) = none at hi
          by_cases ei : i = j
          · rw [if_pos ei, hj] at hi; cases hi
          · rw [if_neg ei] at hi
            rw [if_neg (Ne.symm ei)]
            exact h.absent hi)
        (fun mi hi => by
          change (if i = j then (w.heap j).map _ else w.heap i) = some mi at hi
          by_cases ei : j = i
          · rw [if_pos ei.symm, hj] at hi
            cases hi
            obtain ⟨a, o, m₀, q1, q2, q3, q4, q5⟩ := h.present m (ei ▸ hj)
            exact ⟨a, some fk, m₀, by rw [if_pos ei, q1]; rfl, q2, rfl, congrArg (fun x : LLGP => { x with fk := fk }) q4, q5⟩
          · rw [if_neg (Ne.symm ei)] at hi
            rw [if_neg ei]
            exact h.present mi hi)
      exact key
  | optimize j =>
    obtain ⟨-, rfl⟩ := Prod.mk.inj hr
    refine ⟨fun l hl => ?_, fun l ml hml => ?_, fun mi x hi hx => ?_, fun hi => ?_, fun mi hi => ?_⟩
    · show (if l = j then (w.heap j).map _ else w.heap l) = none
      by_cases el : l = j
      · rw [if_pos el, ← el, h.fresh l hl]; rfl
      · rw [if_neg el]
        exact h.fresh l hl
    · change (if l = j then (w.heap j).map _ else w.heap l) = some ml at hml
      by_cases el : l = j
      · rw [if_pos el] at hml
        obtain ⟨m, hm, rfl⟩ := Option.map_eq_some_iff.1 hml
        obtain ⟨k, hk⟩ := h.current j m hm
        exact ⟨k, hk.kernel, hk.built, hk.solved⟩
      · rw [if_neg el] at hml
        exact h.current l ml hml
    · change (if i = j then (w.heap j).map _ else w.heap i) = some mi at hi
      by_cases ei : j = i
      · rw [if_pos ei.symm] at hi
        obtain ⟨m, hm, rfl⟩ := Option.map_eq_some_iff.1 hi
        obtain ⟨y, -, rfl⟩ := Option.map_eq_some_iff.1 (show (m.metrics.map fun _ => Metrics.new) = some x from hx)
        simp only [updatesSince, if_pos ei]
        exact ⟨rfl, rfl, rfl, rfl, rfl⟩
      · rw [if_neg (Ne.symm ei)] at hi
        simp only [updatesSince, if_neg ei]
        exact h.count mi x hi hx
    · change (if i = j then (w.heap j).map _ else w.heap i) = none at hi
      by_cases ei : i = j
      · rw [if_pos ei, Option.map_eq_none_iff] at hi
        exact h.absent (ei ▸ hi)
      · rw [if_neg ei] at hi
        exact h.absent hi
    · change (if i = j then (w.heap j).map _ else w.heap i) = some mi at hi
      by_cases ei : i = j
      · rw [if_pos ei] at hi
        obtain ⟨m, hm, rfl⟩ := Option.map_eq_some_iff.1 hi
        obtain ⟨a, o, m₀, q1, q2, q3, q4, q5⟩ := h.present m (ei ▸ hm)
        exact ⟨a, o, m₀, q1, q2, q3, q4, by rw [← q5]; exact Option.isSome_map⟩
      · rw [if_neg ei] at hi
        exact h.present mi hi
  | ask j q e =>
    have := OnlyCaches.ask true sv e j q w fun m hm => by
      obtain ⟨k, hk⟩ := h.current j m hm
      exact ⟨k, hk.kernel⟩
    obtain ⟨c, hc⟩ := this
    have : w' = { w with caches := c } := by
      rw [← hc]
      exact (congrArg Prod.snd hr).symm
    rw [this]
    exact settled_caches h c

theorem updatesSince_append (i : ℕ) (l l' : List (Op × Except PyErr Answer)) : ∀ n, updatesSince i n (l ++ l') = updatesSince i (updatesSince i n l) l' := by
  induction l with
  | nil => intro n; rfl
  | cons p l ih =>
    intro n
    obtain ⟨op, r⟩ := p
    cases op <;> exact ih _

theorem setUp_append (i : ℕ) (l l' : List (Op × Except PyErr Answer)) : ∀ s, setUp i s (l ++ l') = setUp i (setUp i s l) l' := by
  induction l with
  | nil => intro s; rfl
  | cons p l ih =>
    intro s
    obtain ⟨op, r⟩ := p
    cases op <;> exact ih _

theorem settled_history {sv : Solvers} (ops : List Op) (hw : ∀ op ∈ ops, op.Works) : ∀ {i n : ℕ} {s : Option (LLGPArgs × Option FK)} {w : World},
    Settled sv i n s w → Completed (ops.zip (history true sv ops w).1) →
    Settled sv i (updatesSince i n (ops.zip (history true sv ops w).1)) (setUp i s (ops.zip (history true sv ops w).1)) (history true sv ops w).2 := by
  induction ops with
  | nil => intro i n s w h _; exact h
  | cons op ops ih =>
    intro i n s w h hc
    have h1 := settled_step h op (hw op (by simp)) fun hch => hc (op, (execOp true sv op w).1) (by simp [history]) hch
    have h2 := ih (fun op' ho => hw op' (by simp [ho])) h1 fun p hp hch => hc p (by
      simp only [history, List.zip_cons_cons, List.mem_cons]
      exact .inr hp) hch
    have e : (op :: ops).zip (history true sv (op :: ops) w).1 = [(op, (execOp true sv op w).1)] ++ ops.zip (history true sv ops (execOp true sv op w).2).1 := rfl
    rw [e, updatesSince_append, setUp_append]
    exact h2

theorem settled_start (sv : Solvers) (i : ℕ) : Settled sv i 0 none World.start :=
  ⟨fun _ _ => rfl, (fun _ _ h => by cases h), (fun _ _ h => by cases h), fun _ => rfl, (fun _ h => by cases h)⟩

/-! ### two up-to-date models with the same parameters give the same answers -/

theorem answer_congr {sv : Solvers} {m₁ m₂ : LLGP} {k₁ k₂ : LLKernel} (h₁ : m₁.Current sv k₁) (h₂ : m₂.Current sv k₂)
    (hc : ({ m₁ with kernel := none } : LLGP).core = ({ m₂ with kernel := none } : LLGP).core) (e : Env) (q : Query) : m₁.answer sv e q = m₂.answer sv e q := by
  obtain ⟨gp, fk, grids, pred, nIt, tol, me, ke, gr⟩ := m₁
  obtain ⟨gp', fk', grids', pred', nIt', tol', me', ke', gr'⟩ := m₂
  simp only [LLGP.core, LLGP.mk.injEq, and_true] at hc
  obtain ⟨rfl, rfl, rfl, rfl, rfl, rfl⟩ := hc
  have e1 : ke = some k₁ := h₁.kernel
  have e2 : ke' = some k₂ := h₂.kernel
  subst e1 e2
  have hb : (k₁.approx.K, k₁.grids) = (k₂.approx.K, k₂.grids) := Except.ok.inj (h₁.built.symm.trans h₂.built)
  obtain ⟨hK, hg⟩ := Prod.mk.inj hb
  have ha : k₁.approx.alpha = k₂.approx.alpha := by
    obtain ⟨l1, s1⟩ := h₁.solved
    obtain ⟨l2, s2⟩ := h₂.solved
    rw [hK] at s1
    have := Except.ok.inj (s1.symm.trans s2)
    exact SolveRet.plain.inj (Prod.mk.inj this).1
  have g1 : LLGP.gridAlpha ⟨gp, fk, grids, pred, nIt, tol, me, some k₁, gr⟩ = LLGP.gridAlpha ⟨gp, fk, grids, pred, nIt, tol, me', some k₂, gr'⟩ := by
    unfold LLGP.gridAlpha
    congr 1
    funext ad
    simp only [LLGP.theKernel, ok_bind, hg, ha]
    rfl
  have g2 : ∀ e, LLGP.nu sv e ⟨gp, fk, grids, pred, nIt, tol, me, some k₁, gr⟩ = LLGP.nu sv e ⟨gp, fk, grids, pred, nIt, tol, me', some k₂, gr'⟩ := by
    intro e
    unfold LLGP.nu
    simp only [LLGP.theKernel, ok_bind, firstGridK, hg, hK]
    rfl
  have g3 : ∀ e Xs, LLGP.varOnTheFly sv e ⟨gp, fk, grids, pred, nIt, tol, me, some k₁, gr⟩ Xs = LLGP.varOnTheFly sv e ⟨gp, fk, grids, pred, nIt, tol, me', some k₂, gr'⟩ Xs := by
    intro e Xs
    unfold LLGP.varOnTheFly
    simp only [LLGP.theKernel, ok_bind, hK]
  have g4 : LLGP.normalQuadratic ⟨gp, fk, grids, pred, nIt, tol, me, some k₁, gr⟩ = LLGP.normalQuadratic ⟨gp, fk, grids, pred, nIt, tol, me', some k₂, gr'⟩ := by
    unfold LLGP.normalQuadratic
    simp only [LLGP.theKernel, ok_bind, ha]
    rfl
  have g5 : LLGP.rawPredict sv e ⟨gp, fk, grids, pred, nIt, tol, me, some k₁, gr⟩ = LLGP.rawPredict sv e ⟨gp, fk, grids, pred, nIt, tol, me', some k₂, gr'⟩ := by
    funext Xs
    unfold LLGP.rawPredict
    rw [g1]
    have g6 : ∀ Ws, LLGP.explained sv e ⟨gp, fk, grids, pred, nIt, tol, me, some k₁, gr⟩ Xs Ws = LLGP.explained sv e ⟨gp, fk, grids, pred, nIt, tol, me', some k₂, gr'⟩ Xs Ws := by
      intro Ws
      unfold LLGP.explained
      cases pred with
      | exact => rfl
      | precompute =>
        simp only
        rw [g2]
      | onTheFly =>
        simp only
        rw [g3]
    simp only [g6]
    rfl
  unfold LLGP.answer
  cases q with
  | predict Xs => simp only [g5]
  | quantiles Xs qs => simp only [g5]
  | covariance => rfl
  | logDet => rfl
  | normalQuadratic => simp only [g4]
  | logLikelihood =>
    simp only [LLGP.logLikelihoodOf, g4]
    rfl

/-- a constructor that returns gives the model the next object number -/
theorem new_number {sv : Solvers} {a : LLGPArgs} {e : Env} (he : e.Works) {w w' : World} {ans : Answer} (h : execOp true sv (.new a e) w = (.ok ans, w')) :
    ans = .model w.next ∧ w'.next = w.next + 1 := by
  unfold execOp at h
  rw [py_bind_ok] at h
  obtain ⟨m, w1, h1, h⟩ := h
  rw [lift_run] at h1
  obtain ⟨-, rfl⟩ := Prod.mk.inj h1
  rw [py_bind_ok] at h
  obtain ⟨j, w2, h2, h⟩ := h
  obtain ⟨hj, rfl⟩ := Prod.mk.inj h2
  cases hj
  rw [py_bind_ok] at h
  obtain ⟨_, w3, h3, h⟩ := h
  obtain ⟨ha, rfl⟩ := Prod.mk.inj h
  cases ha
  obtain ⟨m', k, c, rfl, -⟩ := update_complete he (m := m) (if_pos rfl) h3
  exact ⟨rfl, rfl⟩

end Verif
