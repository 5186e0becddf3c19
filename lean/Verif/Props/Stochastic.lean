import Verif.Props.Iterative
import Verif.Props.PyUtil
import Verif.Proofs.GridKernel
import Mathlib.LinearAlgebra.Matrix.Trace
import Mathlib.Algebra.BigOperators.Fin

/-! C38, C39: the stochastic derivative. -/

namespace Verif

open Matrix

theorem starmap_ok {α β : Type} {p : PoolArg} {f : α → Except PyErr β} {g : α → β} {ls : List α} (hp : p.Works ls.length)
    (hf : ∀ x ∈ ls, f x = .ok (g x)) : starmap p f ls = .ok (ls.map g) := by
  obtain ⟨h1, h2⟩ := C64_starmap f g ls hf
  have : inlineStarmap p f ls = .ok (ls.map fun x => some (g x)) := by
    cases p with
    | none => exact h1
    | pool size schedule =>
      obtain ⟨h3, h4⟩ := hp size schedule rfl
      exact h2 size schedule h3 h4
  unfold starmap
  rw [this, ok_bind, show (ls.map fun x => some (g x)) = (ls.map g).map some by rw [List.map_map]; rfl, mapExcept_map]
  have := mapExcept_ok (g := fun x : β => x) (f := fun x : β => (.ok x : Except PyErr β)) (l := ls.map g) fun x _ => rfl
  rw [List.map_id'] at this
  exact this

theorem generate_contents (sv : Solvers) (hs : sv.Fit) (s : DerivService) (metrics : Option Metrics) (z : ℕ → ℕ → Bool) {K : MatObj} {n : ℕ}
    {A : ℕ → ℕ → ℝ} (hK : SquareOp K n A) {y : List ℝ} (hy : y.length = n) (hp : s.pool.Works (s.nIt + 1)) :
    ∃ sol : List ℝ → List ℝ, (∀ b, b.length = n → ∃ lg, iterativeSolve sv K b false true s.tol = .ok (.plain (sol b), lg)) ∧
    ∃ m', s.generate sv metrics z K y = .ok (⟨sol y, signRows s.nIt n z, (signRows s.nIt n z).map sol, s.nIt⟩, m') ∧
      Generated sv s metrics z K n A y ⟨sol y, signRows s.nIt n z, (signRows s.nIt n z).map sol, s.nIt⟩ m' := by
  have hsol : ∀ b : List ℝ, ∃ r : List ℝ × ℕ × ℝ × Bool, b.length = n →
      iterativeSolve sv K b true true s.tol = .ok (.verbose r.1 r.2.1 r.2.2.1, r.2.2.2) ∧
      iterativeSolve sv K b false true s.tol = .ok (.plain r.1, r.2.2.2) ∧ r.2.2.1 = resNorm n A b r.1 := by
    intro b
    by_cases hb : b.length = n
    · obtain ⟨x, c, e, lg, h1, h2, h3, -⟩ := C51_solve sv hs K n A hK b hb true s.tol
      exact ⟨(x, c, e, lg), fun _ => ⟨h1, h2, h3⟩⟩
    · exact ⟨([], 0, 0, false), fun h => absurd h hb⟩
  choose r hr using hsol
  have hrs : ∀ b ∈ y :: signRows s.nIt n z, b.length = n := by
    intro b hb
    rcases List.mem_cons.1 hb with rfl | hb
    · exact hy
    · unfold signRows vmk at hb
      obtain ⟨k, -, rfl⟩ := List.mem_map.1 hb
      simp
  have hlen : (y :: signRows s.nIt n z).length = s.nIt + 1 := by simp [signRows]
  have hrl : (signRows s.nIt n z).length = s.nIt := by simp [signRows]
  refine ⟨fun b => (r b).1, fun b hb => ⟨_, (hr b hb).2.1⟩, ?_⟩
  have hrows : K.rows = n := hK.rows
  have hgetD : ∀ k < s.nIt, ((signRows s.nIt n z).map fun b => (r b).1).getD k [] = (r ((signRows s.nIt n z).getD k [])).1 := by
    intro k hk
    rw [List.getD_eq_getElem _ _ (by simpa [hrl] using hk), List.getElem_map, List.getD_eq_getElem _ _ (by rw [hrl]; exact hk)]
  have hmem : ∀ k < s.nIt, (signRows s.nIt n z).getD k [] ∈ y :: signRows s.nIt n z := by
    intro k hk
    rw [List.getD_eq_getElem _ _ (by rw [hrl]; exact hk)]
    exact List.mem_cons_of_mem _ (List.getElem_mem _)
  have hsign : ∀ k < s.nIt, ((signRows s.nIt n z).getD k []).length = n ∧ ∀ i < n, ((signRows s.nIt n z).getD k []).getD i 0 = if z k i then 1 else -1 := by
    intro k hk
    refine ⟨hrs _ (hmem k hk), fun i hi => ?_⟩
    unfold signRows
    rw [vmk_getD_lt hk, vmk_getD_lt hi]
    cases z k i <;> norm_num
  cases hm : metrics with
  | none =>
    refine ⟨none, ?_, ⟨rfl, ⟨hrl, by simp [hrl]⟩, hsign, ⟨_, (hr y hy).2.1⟩, ?_, fun _ => rfl, fun m h => by cases h⟩⟩
    · unfold DerivService.generate
      simp only [hrows]
      rw [starmap_ok (g := fun b => SolveRet.plain (r b).1) (by rw [hlen]; exact hp) (fun b hb => by
        simp only [Option.isSome_none, (hr b (hrs b hb)).2.1]; rfl), ok_bind]
      unfold recordSolved
      simp only
      rw [mapExcept_map, mapExcept_ok (f := fun b => plainOf (SolveRet.plain (r b).1)) (g := fun b => (r b).1) (fun b _ => rfl)]
      simp only [ok_bind, pure_ok]
      simp [List.getD_eq_getElem?_getD]
      rfl
    · intro k hk
      rw [hgetD k hk]
      exact ⟨_, (hr _ (hrs _ (hmem k hk))).2.1⟩
  | some m =>
    refine ⟨some { m with iterations := m.iterations ++ [npMean ((y :: signRows s.nIt n z).map fun b => ((r b).2.1 : ℝ))],
                          solvError := m.solvError ++ [npMean ((y :: signRows s.nIt n z).map fun b => (r b).2.2.1)] }, ?_,
      ⟨rfl, ⟨hrl, by simp [hrl]⟩, hsign, ⟨_, (hr y hy).2.1⟩, ?_, fun h => (by cases h), fun m' h => ?_⟩⟩
    · unfold DerivService.generate
      simp only [hrows]
      rw [starmap_ok (g := fun b => SolveRet.verbose (r b).1 (r b).2.1 (r b).2.2.1) (by rw [hlen]; exact hp) (fun b hb => by
        simp only [Option.isSome_some, (hr b (hrs b hb)).1]; rfl), ok_bind]
      unfold recordSolved
      simp only
      rw [mapExcept_map, mapExcept_ok (f := fun b => verboseOf (SolveRet.verbose (r b).1 (r b).2.1 (r b).2.2.1)) (g := fun b => ((r b).1, (r b).2.1, (r b).2.2.1)) (fun b _ => rfl)]
      simp only [ok_bind, List.map_map]
      simp [List.getD_eq_getElem?_getD]
      rfl
    · intro k hk
      rw [hgetD k hk]
      exact ⟨_, (hr _ (hrs _ (hmem k hk))).2.1⟩
    · cases h
      have hmean : ∀ f : List ℝ → ℝ, npMean ((y :: signRows s.nIt n z).map f) = ((y :: signRows s.nIt n z).map f).sum / (s.nIt + 1) := by
        intro f
        unfold npMean
        rw [List.length_map, hlen]
        push_cast
        rfl
      refine ⟨(y :: signRows s.nIt n z).map fun b => ((r b).2.1 : ℝ), (y :: signRows s.nIt n z).map fun b => (r b).2.2.1, by rw [hmean, hmean], by simp [hrl], by simp [hrl], fun k hk => ?_⟩
      have hb : ((y :: signRows s.nIt n z).getD k []).length = n := by
        rw [List.getD_eq_getElem _ _ (by rw [hlen]; exact hk)]
        exact hrs _ (List.getElem_mem _)
      have e1 : ((y :: signRows s.nIt n z).map fun b => (r b).2.2.1).getD k 0 = (r ((y :: signRows s.nIt n z).getD k [])).2.2.1 := by
        rw [List.getD_eq_getElem _ _ (by rw [List.length_map, hlen]; exact hk), List.getElem_map, List.getD_eq_getElem _ _ (by rw [hlen]; exact hk)]
      have e2 : ((y :: signRows s.nIt n z).map fun b => ((r b).2.1 : ℝ)).getD k 0 = (r ((y :: signRows s.nIt n z).getD k [])).2.1 := by
        rw [List.getD_eq_getElem _ _ (by rw [List.length_map, hlen]; exact hk), List.getElem_map, List.getD_eq_getElem _ _ (by rw [hlen]; exact hk)]
      have e3 : ((r y).1 :: (signRows s.nIt n z).map fun b => (r b).1).getD k [] = (r ((y :: signRows s.nIt n z).getD k [])).1 := by
        rw [← List.map_cons (f := fun b => (r b).1), List.getD_eq_getElem _ _ (by rw [List.length_map, hlen]; exact hk), List.getElem_map,
          List.getD_eq_getElem _ _ (by rw [hlen]; exact hk)]
      rw [e1, e2]
      simp only [e3]
      exact ⟨_, _, (hr _ hb).1, rfl, (hr _ hb).2.2⟩

/-- C39: `generate(K, y)` returns `alpha = solve(K, y)` and for every probe its own solution `solve(K, rs[i])`; with metrics it also
appends the mean iteration count and mean residual of these solves and touches no other series. -/
theorem C39_generate (sv : Solvers) (hs : sv.Fit) (s : DerivService) (metrics : Option Metrics) (z : ℕ → ℕ → Bool) (K : MatObj) (n : ℕ)
    (A : ℕ → ℕ → ℝ) (hK : SquareOp K n A) (y : List ℝ) (hy : y.length = n) (hp : s.pool.Works (s.nIt + 1)) :
    ∃ d m', s.generate sv metrics z K y = .ok (d, m') ∧ Generated sv s metrics z K n A y d m' := by
  obtain ⟨sol, -, m', h1, h2⟩ := generate_contents sv hs s metrics z hK hy hp
  exact ⟨_, m', h1, h2⟩

/-- C39: neither the metrics nor the pool (nor the order in which it finishes its tasks) changes what is computed. -/
theorem C39_same (sv : Solvers) (hs : sv.Fit) (nIt : ℕ) (tol : ℝ) (p p' : PoolArg) (metrics metrics' : Option Metrics) (z : ℕ → ℕ → Bool)
    (K : MatObj) (n : ℕ) (A : ℕ → ℕ → ℝ) (hK : SquareOp K n A) (y : List ℝ) (hy : y.length = n) (hp : p.Works (nIt + 1)) (hp' : p'.Works (nIt + 1)) :
    ((⟨p, nIt, tol⟩ : DerivService).generate sv metrics z K y).map Prod.fst = ((⟨p', nIt, tol⟩ : DerivService).generate sv metrics' z K y).map Prod.fst := by
  obtain ⟨sol, hsol, m, h1, -⟩ := generate_contents sv hs ⟨p, nIt, tol⟩ metrics z hK hy hp
  obtain ⟨sol', hsol', m', h2, -⟩ := generate_contents sv hs ⟨p', nIt, tol⟩ metrics' z hK hy hp'
  have e : ∀ b : List ℝ, b.length = n → sol b = sol' b := by
    intro b hb
    obtain ⟨l1, e1⟩ := hsol b hb
    obtain ⟨l2, e2⟩ := hsol' b hb
    rw [e1] at e2
    simp only [Except.ok.injEq, Prod.mk.injEq, SolveRet.plain.injEq] at e2
    exact e2.1
  rw [h1, h2]
  simp only [Except.map]
  congr 2
  · exact e y hy
  · refine List.map_congr_left fun b hb => e b ?_
    unfold signRows vmk at hb
    obtain ⟨k, -, rfl⟩ := List.mem_map.1 hb
    simp

/-! ### unbiasedness -/

/-- the sign of a bit -/
def sgnBit (b : Bool) : ℝ := if b then 1 else -1

theorem sum_signs {m n : ℕ} (k : Fin m) (i j : Fin n) :
    ∑ z : Fin m → Fin n → Bool, sgnBit (z k i) * sgnBit (z k j) = if i = j then 2 ^ (m * n) else 0 := by
  have hcard : Fintype.card (Fin m → Fin n → Bool) = 2 ^ (m * n) := by
    simp only [Fintype.card_fun, Fintype.card_fin, Fintype.card_bool]
    rw [← pow_mul, mul_comm]
  split_ifs with e
  · subst e
    have : ∀ z : Fin m → Fin n → Bool, sgnBit (z k i) * sgnBit (z k i) = 1 := fun z => by unfold sgnBit; split_ifs <;> norm_num
    simp only [this, Finset.sum_const, Finset.card_univ, hcard]
    simp
  · let flip : (Fin m → Fin n → Bool) → (Fin m → Fin n → Bool) := fun z a b => if a = k ∧ b = i then !(z a b) else z a b
    have hinv : Function.Involutive flip := by
      intro z
      funext a b
      simp only [flip]
      split_ifs <;> simp
    have h := Equiv.sum_comp (Function.Involutive.toPerm flip hinv) fun z : Fin m → Fin n → Bool => sgnBit (z k i) * sgnBit (z k j)
    have hneg : ∀ z : Fin m → Fin n → Bool, sgnBit (Function.Involutive.toPerm flip hinv z k i) * sgnBit (Function.Involutive.toPerm flip hinv z k j) = -(sgnBit (z k i) * sgnBit (z k j)) := by
      intro z
      have h1 : Function.Involutive.toPerm flip hinv z k i = !(z k i) := by
        show flip z k i = _
        simp [flip]
      have h2 : Function.Involutive.toPerm flip hinv z k j = z k j := by
        show flip z k j = _
        simp only [flip]
        rw [if_neg]
        rintro ⟨-, h⟩
        exact e h.symm
      rw [h1, h2]
      cases z k i <;> cases z k j <;> norm_num [sgnBit]
    simp only [hneg, Finset.sum_neg_distrib] at h
    linarith

theorem avg_quadratic {m n : ℕ} (k : Fin m) (M : Matrix (Fin n) (Fin n) ℝ) :
    ∑ z : Fin m → Fin n → Bool, (fun i => sgnBit (z k i)) ⬝ᵥ M *ᵥ (fun i => sgnBit (z k i)) = 2 ^ (m * n) * M.trace := by
  simp only [dotProduct, mulVec, Finset.mul_sum]
  rw [Finset.sum_comm]
  have : ∀ i : Fin n, ∑ z : Fin m → Fin n → Bool, ∑ j, sgnBit (z k i) * (M i j * sgnBit (z k j)) = 2 ^ (m * n) * M i i := by
    intro i
    rw [Finset.sum_comm]
    have : ∀ j, ∑ z : Fin m → Fin n → Bool, sgnBit (z k i) * (M i j * sgnBit (z k j)) = M i j * if i = j then 2 ^ (m * n) else 0 := by
      intro j
      rw [← sum_signs k i j, Finset.mul_sum]
      exact Finset.sum_congr rfl fun z _ => by ring
    simp only [this]
    simp [mul_comm]
  simp only [this]
  rw [← Finset.mul_sum]
  rfl

theorem vdot_toVec (n : ℕ) (u v : List ℝ) (hu : u.length = n) : vdot u v = toVec n u ⬝ᵥ toVec n v := by
  unfold vdot
  rw [hu, Finset.sum_range]
  rfl

theorem toVec_matvec {K : MatObj} {n : ℕ} {A : ℕ → ℕ → ℝ} (h : SquareOp K n A) (x : List ℝ) (hx : x.length = n) :
    toVec n (K.matvec x) = fnMatrix n n A *ᵥ toVec n x := by
  funext i
  unfold toVec
  rw [h.rep.matvec x (by rw [h.cols, hx]), h.rows, h.cols, vmk_getD_lt i.2, Finset.sum_range]
  rfl

theorem foldl_add_sum {α : Type} (f : α → ℝ) : ∀ (l : List α) (a : ℝ), l.foldl (fun t x => t + f x) a = a + (l.map f).sum
  | [], a => by simp
  | x :: l, a => by rw [List.foldl_cons, foldl_add_sum f l, List.map_cons, List.sum_cons, add_assoc]

/-- the value of the estimator for given bits, with exact solves -/
theorem estimate_value (sv : Solvers) (hs : sv.Fit) (s : DerivService) (hn : 0 < s.nIt) (metrics : Option Metrics) {K dK : MatObj} {n : ℕ}
    {A B : ℕ → ℕ → ℝ} (hK : SquareOp K n A) (hB : SquareOp dK n B) {y : List ℝ} (hy : y.length = n) (hp : s.pool.Works (s.nIt + 1))
    (hx : ExactSolves sv K n A s.tol) (z : Fin s.nIt → Fin n → Bool) :
    ∃ d m', s.generate sv metrics (tableBits z) K y = .ok (d, m') ∧
      d.derivative dK = .ok (1 / 2 * (((fnMatrix n n A)⁻¹ *ᵥ toVec n y) ⬝ᵥ fnMatrix n n B *ᵥ ((fnMatrix n n A)⁻¹ *ᵥ toVec n y) -
        (∑ k : Fin s.nIt, (fun i => sgnBit (z k i)) ⬝ᵥ ((fnMatrix n n A)⁻¹ᵀ * fnMatrix n n B) *ᵥ (fun i => sgnBit (z k i))) / s.nIt)) := by
  obtain ⟨sol, hsol, m', h1, h2⟩ := generate_contents sv hs s metrics (tableBits z) hK hy hp
  refine ⟨_, m', h1, ?_⟩
  have hex : ∀ b : List ℝ, b.length = n → (sol b).length = n ∧ toVec n (sol b) = (fnMatrix n n A)⁻¹ *ᵥ toVec n b := by
    intro b hb
    obtain ⟨x, lg, e1, e2, e3⟩ := hx b hb
    obtain ⟨lg', e4⟩ := hsol b hb
    rw [e1] at e4
    cases e4
    exact ⟨e2, e3⟩
  obtain ⟨y1, y2⟩ := hex y hy
  unfold StochDeriv.derivative
  rw [if_pos ⟨by rw [hB.rows]; exact y1.symm, by rw [hB.cols]; exact y1.symm⟩]
  unfold StochDeriv.dLogdetK
  simp only [if_neg hn.ne', ok_bind]
  have e1 : StochDeriv.dNormalQuadratic ⟨sol y, signRows s.nIt n (tableBits z), (signRows s.nIt n (tableBits z)).map sol, s.nIt⟩ dK =
      ((fnMatrix n n A)⁻¹ *ᵥ toVec n y) ⬝ᵥ fnMatrix n n B *ᵥ ((fnMatrix n n A)⁻¹ *ᵥ toVec n y) := by
    unfold StochDeriv.dNormalQuadratic
    rw [vdot_toVec n _ _ y1, toVec_matvec hB _ y1, y2]
  have e2 : ((signRows s.nIt n (tableBits z)).zip ((signRows s.nIt n (tableBits z)).map sol)).foldl
      (fun trace rr => trace + vdot rr.2 (dK.matvec rr.1)) 0 =
      ∑ k : Fin s.nIt, (fun i => sgnBit (z k i)) ⬝ᵥ ((fnMatrix n n A)⁻¹ᵀ * fnMatrix n n B) *ᵥ (fun i => sgnBit (z k i)) := by
    rw [foldl_add_sum (fun rr : List ℝ × List ℝ => vdot rr.2 (dK.matvec rr.1)), zero_add, List.zip_map_right, List.map_map]
    unfold signRows vmk
    rw [List.zip_map', List.map_map, list_sum_range, Finset.sum_range]
    refine Finset.sum_congr rfl fun k _ => ?_
    simp only [Function.comp, Prod.map]
    set r : List ℝ := (List.range n).map fun i => (if tableBits z k i = true then (1 : ℝ) else 0) * 2 - 1 with hr
    have hrl : r.length = n := by simp [hr]
    have hrv : toVec n r = fun i => sgnBit (z k i) := by
      funext i
      show r.getD i 0 = _
      rw [show r = vmk n fun i => (if tableBits z k i = true then (1 : ℝ) else 0) * 2 - 1 from rfl, vmk_getD_lt i.2]
      unfold tableBits sgnBit
      rw [dif_pos ⟨k.2, i.2⟩]
      cases z k i <;> norm_num
    obtain ⟨r1, r2⟩ := hex r hrl
    show vdot (sol r) (dK.matvec r) = _
    rw [vdot_toVec n _ _ r1, r2, toVec_matvec hB _ hrl, hrv, ← Matrix.mulVec_mulVec, Matrix.dotProduct_mulVec (v := fun i => sgnBit (z k i)),
      Matrix.vecMul_transpose]
  rw [e1, e2]
  norm_num [pure_ok]

/-- C38: with exact solves, the average of the stochastic derivative over all sign matrices (which are what `generate` draws from,
uniformly) is the exact derivative `1/2 (alphaᵀ dK alpha - tr(K⁻¹ dK))`, for every number of probes. -/
theorem C38_unbiased (sv : Solvers) (hs : sv.Fit) (s : DerivService) (hn : 0 < s.nIt) (metrics : Option Metrics) (K dK : MatObj) (n : ℕ)
    (A B : ℕ → ℕ → ℝ) (hK : SquareOp K n A) (hB : SquareOp dK n B) (y : List ℝ) (hy : y.length = n) (hp : s.pool.Works (s.nIt + 1))
    (hsymm : ∀ i < n, ∀ j < n, A i j = A j i) (hx : ExactSolves sv K n A s.tol) :
    ∃ val : (Fin s.nIt → Fin n → Bool) → ℝ,
      (∀ z, ∃ d m', s.generate sv metrics (tableBits z) K y = .ok (d, m') ∧ d.derivative dK = .ok (val z)) ∧
      (∑ z, val z) / 2 ^ (s.nIt * n) = 1 / 2 * (((fnMatrix n n A)⁻¹ *ᵥ toVec n y) ⬝ᵥ fnMatrix n n B *ᵥ ((fnMatrix n n A)⁻¹ *ᵥ toVec n y) -
        ((fnMatrix n n A)⁻¹ * fnMatrix n n B).trace) := by
  refine ⟨_, fun z => estimate_value sv hs s hn metrics hK hB hy hp hx z, ?_⟩
  have hsT : (fnMatrix n n A)⁻¹ᵀ = (fnMatrix n n A)⁻¹ := by
    rw [Matrix.transpose_nonsing_inv]
    congr 1
    ext i j
    exact hsymm j j.2 i i.2
  set q := ((fnMatrix n n A)⁻¹ *ᵥ toVec n y) ⬝ᵥ fnMatrix n n B *ᵥ ((fnMatrix n n A)⁻¹ *ᵥ toVec n y) with hq
  rw [← Finset.mul_sum, Finset.sum_sub_distrib, ← Finset.sum_div, Finset.sum_comm]
  simp only [avg_quadratic]
  rw [Finset.sum_const, Finset.sum_const, Finset.card_univ, Finset.card_univ, hsT]
  simp only [Fintype.card_fun, Fintype.card_fin, Fintype.card_bool, nsmul_eq_mul]
  have h2 : (2 : ℝ) ^ (s.nIt * n) ≠ 0 := by positivity
  have h3 : (s.nIt : ℝ) ≠ 0 := by exact_mod_cast hn.ne'
  push_cast
  rw [show ((2 : ℝ) ^ n) ^ s.nIt = 2 ^ (s.nIt * n) by rw [← pow_mul, mul_comm]]
  field_simp

/-- Krylov methods that return the exact solution after 3 iterates -/
noncomputable def exactSolvers : Solvers :=
  let run := fun (K : MatObj) (b : List ℝ) =>
    let x := vmk b.length fun i => if h : i < b.length then ((fnMatrix b.length b.length fun i j => K.asNumpy.get i j)⁻¹ *ᵥ toVec b.length b) ⟨i, h⟩ else 0
    (⟨[b, b, x], x, 0⟩ : KrylovRun)
  ⟨fun K b _ _ => run K b, fun K b _ _ => run K b⟩

theorem exactSolvers_fit : exactSolvers.Fit := by
  intro K y tol it
  constructor <;> refine ⟨fun x hx => ?_, by simp [exactSolvers]⟩ <;>
  · simp only [exactSolvers, List.mem_cons, List.not_mem_nil, or_false] at hx
    rcases hx with rfl | rfl | rfl <;> simp

/-- such methods make every solve exact, for every operator -/
theorem exactSolvers_exact {K : MatObj} {n : ℕ} {A : ℕ → ℕ → ℝ} (hK : SquareOp K n A) (tol : ℝ) : ExactSolves exactSolvers K n A tol := by
  intro b hb
  obtain ⟨x, c, e, lg, h1, h2, -, -, h5⟩ := C51_solve exactSolvers exactSolvers_fit K n A hK b hb true tol
  refine ⟨x, lg, h2, ?_⟩
  rcases h5 with ⟨k, k1, -⟩ | ⟨-, rfl, -⟩
  · obtain ⟨a1, a2, a3, -⟩ := k1
    have : k ≤ 3 := a2
    obtain ⟨p, hp⟩ := a3
    omega
  · have hA : (fnMatrix n n fun i j => K.asNumpy.get i j) = fnMatrix n n A := by
      ext i j
      exact hK.rep.entry (by rw [hK.rows]; exact i.2) (by rw [hK.cols]; exact j.2)
    subst hb
    have e : (exactSolvers.run K b true tol).x = vmk b.length fun i => if h : i < b.length then
        ((fnMatrix b.length b.length A)⁻¹ *ᵥ toVec b.length b) ⟨i, h⟩ else 0 := by
      rw [← hA]
      rfl
    rw [e]
    refine ⟨by simp, ?_⟩
    funext i
    show (vmk _ _).getD i 0 = _
    rw [vmk_getD_lt i.2, dif_pos i.2]

/-- hypotheses of C38 and C39: a 2 × 2 covariance and derivative, three probes, a pool of two workers finishing in the other order -/
example : ∃ K dK : MatObj, ∃ A B : ℕ → ℕ → ℝ, SquareOp K 2 A ∧ SquareOp dK 2 B ∧ (∀ i < 2, ∀ j < 2, A i j = A j i) ∧ A 0 1 ≠ 0 ∧
    ExactSolves exactSolvers K 2 A 1e-4 ∧ exactSolvers.Fit ∧ (PoolArg.pool 2 [1, 0]).Works (3 + 1) := by
  obtain ⟨K, hK, h1⟩ := isMatrix_numpy (A := ⟨2, 2, [2, 1, 1, 2]⟩) rfl (by norm_num) (by norm_num)
  obtain ⟨dK, hdK⟩ : ∃ K, identityNew 2 = .ok K := ⟨_, rfl⟩
  have h2 := identity_represents hdK
  have hs : SquareOp K 2 (fun i j => (⟨2, 2, [2, 1, 1, 2]⟩ : Arr2 ℝ).get i j) := ⟨h1.represents, h1.rows, h1.cols⟩
  refine ⟨K, dK, _, _, hs, ⟨h2.2.2, h2.1, h2.2.1⟩, ?_, ?_, exactSolvers_exact hs _, exactSolvers_fit, ?_⟩
  · intro i hi j hj
    interval_cases i <;> interval_cases j <;> simp [Arr2.get]
  · simp [Arr2.get]
  · intro size schedule h
    cases h
    refine ⟨by norm_num, ?_⟩
    simp [nchunks, List.range_succ]
    exact List.Perm.swap _ _ _

end Verif
