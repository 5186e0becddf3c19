import Verif.Proofs.OptimizerLoop

/-! Runs of the optimiser on a model that is used as documented. -/

namespace Verif

/-- the state `w` the program is in when the run, begun in `w₀`, has visited the points `xs` -/
structure OnRun (sv : Solvers) (i : ℕ) (fk₀ : FK) (es : ℕ → Env) (fks₀ : List FK) (w₀ : World) (xs : List (List ℝ)) (w : World) (fks : List FK) : Prop where
  world : w = (history true sv (visits i fk₀ es 0 xs) w₀).2
  healthy : Healthy sv fks w
  extend : ∀ rest, ValidFrom fks rest → ValidFrom fks₀ (visits i fk₀ es 0 xs ++ rest)
  self : ∃ fk, fks[i]? = some fk ∧ fk₀.Like fk ∧ fk.Tunable

theorem Healthy.listed {sv : Solvers} {fks : List FK} {w : World} (h : Healthy sv fks w) {i : ℕ} {m : LLGP} (hm : w.heap i = some m) : fks[i]? = some m.fk := by
  by_cases hi : i < fks.length
  · obtain ⟨m', P, k, q1, q2, q3, q4, q5⟩ := h.model i fks[i] (List.getElem?_eq_getElem hi)
    rw [hm] at q1
    cases q1
    rw [q3]
    exact List.getElem?_eq_getElem hi
  · rw [h.fresh i (by rw [h.next]; omega)] at hm
    cases hm

theorem visits_snoc (sv : Solvers) (i : ℕ) (fk₀ : FK) (es : ℕ → Env) (xs : List (List ℝ)) (y : List ℝ) :
    visits i fk₀ es 0 (xs ++ [y]) = visits i fk₀ es 0 xs ++ [.set i (fk₀.setOptimizerArray y) (es xs.length)] := by
  rw [visits_append, Nat.zero_add]
  rfl

theorem visit_valid {sv : Solvers} (hs : sv.Fit) {i : ℕ} {fk₀ : FK} {es : ℕ → Env} {fks₀ : List FK} {w₀ : World} {xs : List (List ℝ)} {w : World} {fks : List FK}
    (h : OnRun sv i fk₀ es fks₀ w₀ xs w fks) (hc : (es xs.length).Calm) {y : List ℝ} (hy : y.length = fk₀.slots.length) (hp : ∀ k ∈ (fk₀.setOptimizerArray y).kernels, k.PeriodOK) :
    ∃ fks' m', (execOp true sv (.set i (fk₀.setOptimizerArray y) (es xs.length)) w).1 = .ok .unit ∧
      OnRun sv i fk₀ es fks₀ w₀ (xs ++ [y]) (execOp true sv (.set i (fk₀.setOptimizerArray y) (es xs.length)) w).2 fks' ∧
      (execOp true sv (.set i (fk₀.setOptimizerArray y) (es xs.length)) w).2.heap i = some m' ∧ m'.fk = fk₀.setOptimizerArray y := by
  obtain ⟨fk, hi, hl, ht⟩ := h.self
  obtain ⟨m, P, k, q1, q2, q3, q4, q5⟩ := h.healthy.model i fk hi
  have hr : fk.Ready P := q3 ▸ q2.ready
  have hso : fk.Sound := h.healthy.sound fk (List.mem_of_getElem? hi)
  have hy' : y.length = fk.slots.length := by rw [hl.1]; exact hy
  have he := hl.2 y hy
  obtain ⟨t1, t2, t3⟩ := tuned_valid hr hso ht hy' (by rw [he]; exact hp)
  have hlike := fk₀.like_set hy
  have hworld := visits_snoc sv i fk₀ es xs y
  have hext := h.extend
  have hwd := h.world
  have hh := h.healthy
  clear h hp
  rw [he] at t1 t2 t3
  generalize fk₀.setOptimizerArray y = fk' at *
  generalize es xs.length = e at *
  have t1' : m.fk.Retuned fk' := q3.symm ▸ t1
  have hpd : ((e.debug = true ∨ m.metrics ≠ none) → (fk'.covMat m.gp.Xs).PosDef) := fun _ => sound_posDef (q2.retuned t1') t2
  obtain ⟨m', k', c, h1, -, h3, -⟩ := set_completes hs q2 t1' q4 hc hpd true q1
  obtain ⟨fks', -, g2, -, -, g5, -⟩ := healthy_step hs (.set i fk' e) [] fks w hh ⟨fk, hi, t1, t2, hc, trivial⟩
  have hheap : (execOp true sv (.set i fk' e) w).2.heap i = some m' := by rw [h1]; exact put_heap _ _ _
  have hok : (execOp true sv (.set i fk' e) w).1 = .ok .unit := by rw [h1]
  refine ⟨fks', m', hok, ⟨?_, g5, fun rest hrest => ?_, m'.fk, g5.listed hheap, h3.symm ▸ hlike, h3.symm ▸ t3⟩, hheap, h3⟩
  · rw [hworld, history_append, ← hwd]
    rfl
  · rw [hworld, List.append_assoc]
    exact hext _ (g2 rest hrest)

theorem slots_ne_nil {fk : FK} (h : fk.WF) : fk.slots ≠ [] := by
  intro he
  have : (Slot.noise 0) ∈ fk.slots := mem_slots.2 (by rw [h.noise]; exact h.Dpos)
  rw [he] at this
  cases this

/-- the run that is never stopped -/
theorem run_on {sv : Solvers} (hs : sv.Fit) {i : ℕ} {fk₀ : FK} {es : ℕ → Env} (hes : ∀ k, (es k).Calm) {fks₀ : List FK} {w₀ : World} (h₀ : OnRun sv i fk₀ es fks₀ w₀ [] w₀ fks₀)
    (hne : fk₀.slots ≠ []) {c : Climb} (hk : c.Keeps) {x : List ℝ} (hx : x.length = fk₀.slots.length) (hp : ∀ gs, ∀ k ∈ (fk₀.setOptimizerArray (c.ask x gs)).kernels, k.PeriodOK) :
    ∃ (G : ℕ → List ℝ) (S : ℕ → Run), S 0 = ⟨[], w₀⟩ ∧ RunsOn (Run.step true sv es i c x) S G ∧ ∀ n, (S n).grads = (List.range n).map G ∧
      (∃ fks, OnRun sv i fk₀ es fks₀ w₀ ((List.range n).map fun k => c.ask x ((List.range k).map G)) (S n).world fks) ∧
      ∃ m', (S (n + 1)).world.heap i = some m' ∧ G n = m'.objectiveGrads := by
  let S : ℕ → Run := fun n => Nat.rec ⟨[], w₀⟩ (fun _ s => (Run.step true sv es i c x s).2) n
  let G : ℕ → List ℝ := fun n => match (Run.step true sv es i c x (S n)).1 with | .ok g => g | .error _ => []
  have hS : ∀ n, S (n + 1) = (Run.step true sv es i c x (S n)).2 := fun _ => rfl
  have key : ∀ n, (S n).grads = (List.range n).map G ∧ (∃ fks, OnRun sv i fk₀ es fks₀ w₀ ((List.range n).map fun k => c.ask x ((List.range k).map G)) (S n).world fks) →
      (S (n + 1)).grads = (List.range (n + 1)).map G ∧ (∃ fks, OnRun sv i fk₀ es fks₀ w₀ ((List.range (n + 1)).map fun k => c.ask x ((List.range k).map G)) (S (n + 1)).world fks) ∧
      Run.step true sv es i c x (S n) = (.ok (G n), S (n + 1)) ∧ ∃ m', (S (n + 1)).world.heap i = some m' ∧ G n = m'.objectiveGrads ∧ m'.fk.slots = fk₀.slots := by
    rintro n ⟨hg, fks, hon⟩
    have hlen : (c.ask x (S n).grads).length = fk₀.slots.length := ((hk x (S n).grads).1).trans hx
    have hxl : ((List.range n).map fun k => c.ask x ((List.range k).map G)).length = (S n).grads.length := by rw [hg]; simp
    obtain ⟨fks', m', v1, v2, v3, v4⟩ := visit_valid hs hon (hes _) (y := c.ask x (S n).grads) hlen (hp _)
    rw [hxl] at v1 v2 v3
    obtain ⟨fk, r1, r2, -⟩ := hon.self
    obtain ⟨m, P, k, q1, q2, q3, -⟩ := hon.healthy.model i fk r1
    obtain ⟨h1, -, h4⟩ := step_visit (u := true) (sv := sv) (es := es) (c := c) (x := x) q1 (by rw [q3]; exact r2) hlen
    rcases h4 with ⟨err, -, h4, -⟩ | ⟨m'', -, h5, h6, h7, h8⟩
    · rw [v1] at h4; cases h4
    have hG : G n = m''.objectiveGrads := by
      show (match (Run.step true sv es i c x (S n)).1 with | .ok g => g | .error _ => []) = _
      rw [h6]
    refine ⟨?_, ⟨fks', ?_⟩, ?_, m'', ?_, hG, ?_⟩
    · rw [hS, h7, hg, List.range_succ, List.map_append, ← hG]; rfl
    · rw [hS, h1, List.range_succ, List.map_append]
      rw [show (List.map (fun k => c.ask x (List.map G (List.range k))) [n]) = [c.ask x (S n).grads] by rw [hg]; rfl]
      exact v2
    · rw [hG, ← h6, hS]
    · exact h5
    · rw [h8, setOptimizerArray_slots]
  have all : ∀ n, (S n).grads = (List.range n).map G ∧ (∃ fks, OnRun sv i fk₀ es fks₀ w₀ ((List.range n).map fun k => c.ask x ((List.range k).map G)) (S n).world fks) := by
    intro n
    induction n with
    | zero => exact ⟨rfl, fks₀, h₀⟩
    | succ n ih => exact ⟨(key n ih).1, (key n ih).2.1⟩
  refine ⟨G, S, rfl, ⟨fun n => (key n (all n)).2.2.1, fun n hn => ?_⟩, fun n => ⟨(all n).1, (all n).2, ?_⟩⟩
  · obtain ⟨m', -, h2, h3⟩ := (key n (all n)).2.2.2
    rw [h2] at hn
    exact hne (by rw [← h3]; exact List.map_eq_nil_iff.1 hn)
  · obtain ⟨m', h1, h2, -⟩ := (key n (all n)).2.2.2
    exact ⟨m', h1, h2⟩

end Verif
