import Verif.Props.Interp2
import Mathlib.Algebra.Order.Floor.Semiring

/-! C21-C22: `autogrid` (`runlmc/approx/interpolation.py`). -/

namespace Verif

theorem foldl_bound {f : ℝ → ℝ → ℝ} {R : ℝ → ℝ → Prop} (hrefl : ∀ a, R a a) (htrans : ∀ a b c, R a b → R b c → R a c)
    (hl : ∀ a b, R (f a b) a) (hr : ∀ a b, R (f a b) b) (l : List ℝ) (a : ℝ) :
    R (l.foldl f a) a ∧ ∀ x ∈ l, R (l.foldl f a) x := by
  induction l generalizing a with
  | nil => exact ⟨hrefl a, by simp⟩
  | cons b l ih =>
    obtain ⟨i1, i2⟩ := ih (f a b)
    refine ⟨htrans _ _ _ i1 (hl a b), fun x hx => ?_⟩
    simp only [List.mem_cons] at hx
    rcases hx with rfl | hx
    · exact htrans _ _ _ i1 (hr a x)
    · exact i2 x hx

theorem foldl_attained {f : ℝ → ℝ → ℝ} (hc : ∀ a b, f a b = a ∨ f a b = b) (l : List ℝ) (a : ℝ) : l.foldl f a = a ∨ l.foldl f a ∈ l := by
  induction l generalizing a with
  | nil => exact .inl rfl
  | cons b l ih =>
    rw [List.foldl_cons]
    rcases ih (f a b) with h | h
    · rcases hc a b with e | e
      · exact .inl (h.trans e)
      · exact .inr (by rw [h, e]; simp)
    · exact .inr (by simp [h])

theorem zip2_length (f : ℝ → ℝ → ℝ) {a b : List ℝ} {P : ℕ} (ha : a.length = P) (hb : b.length = P) :
    (zip2 f a b).length = P := by simp [zip2, ha, hb]

theorem zip2_getD (f : ℝ → ℝ → ℝ) {a b : List ℝ} {P p : ℕ} (ha : a.length = P) (hb : b.length = P) (hp : p < P) :
    (zip2 f a b).getD p 0 = f (a.getD p 0) (b.getD p 0) := by
  have h1 : p < a.length := ha ▸ hp
  have h2 : p < b.length := hb ▸ hp
  simp [zip2, h1, h2]

theorem foldl_zip2_axis (f : ℝ → ℝ → ℝ) {P : ℕ} (l : List (List ℝ)) (a : List ℝ) (ha : a.length = P)
    (hl : ∀ x ∈ l, x.length = P) :
    (l.foldl (zip2 f) a).length = P ∧
    ∀ p < P, (l.foldl (zip2 f) a).getD p 0 = (l.map fun x => x.getD p 0).foldl f (a.getD p 0) := by
  induction l generalizing a with
  | nil => exact ⟨ha, fun p _ => rfl⟩
  | cons b l ih =>
    have hb := hl b (by simp)
    obtain ⟨i1, i2⟩ := ih (zip2 f a b) (zip2_length f ha hb) fun x hx => hl x (by simp [hx])
    refine ⟨i1, fun p hp => ?_⟩
    simp only [List.foldl_cons, List.map_cons]
    rw [i2 p hp, zip2_getD f ha hb hp]

theorem mapExcept_length {α β : Type} {f : α → Except PyErr β} {l : List α} {r : List β} (h : mapExcept f l = .ok r) :
    r.length = l.length := by
  induction l generalizing r with
  | nil => simp only [mapExcept, Except.ok.injEq] at h; subst h; rfl
  | cons a l ih =>
    simp only [mapExcept, bind_ok, pure_ok] at h
    obtain ⟨y, -, ys, hys, rfl⟩ := h
    simp [ih hys]

/-- the overall columnwise minimum (or maximum) is below (above) every entry -/
theorem axis_fold {f : ℝ → ℝ → ℝ} {R : ℝ → ℝ → Prop} (hrefl : ∀ a, R a a) (htrans : ∀ a b c, R a b → R b c → R a c)
    (hl : ∀ a b, R (f a b) a) (hr : ∀ a b, R (f a b) b) (hc : ∀ a b, f a b = a ∨ f a b = b) {P : ℕ} {Xs : List (Arr2 ℝ)} (hne : Xs ≠ [])
    (hX : ∀ X ∈ Xs, 0 < X.rows ∧ X.cols = P) :
    ∃ v, mapExcept (axisReduce f) Xs = .ok v ∧
      (v.tail.foldl (zip2 f) (v.headD [])).length = P ∧
      (∀ p < P, ∀ X ∈ Xs, ∀ i < X.rows, R ((v.tail.foldl (zip2 f) (v.headD [])).getD p 0) (X.get i p)) ∧
      ∀ p < P, ∃ X ∈ Xs, ∃ i < X.rows, X.get i p = (v.tail.foldl (zip2 f) (v.headD [])).getD p 0 := by
  let g : Arr2 ℝ → List ℝ := fun X => vmk X.cols fun j => (X.col j).tail.foldl f (X.get 0 j)
  have hok : mapExcept (axisReduce f) Xs = .ok (Xs.map g) :=
    mapExcept_ok fun X hX' => by rw [axisReduce, if_neg (by have := (hX X hX').1; omega)]
  have hg : ∀ X ∈ Xs, ∀ p < P, ∀ i < X.rows, R ((g X).getD p 0) (X.get i p) := by
    intro X hX' p hp i hi
    have hpc : p < X.cols := by rw [(hX X hX').2]; exact hp
    rw [vmk_getD_lt hpc]
    obtain ⟨b1, b2⟩ := foldl_bound hrefl htrans hl hr (X.col p).tail (X.get 0 p)
    cases i with
    | zero => exact b1
    | succ i =>
      refine b2 _ ?_
      have : X.get (i + 1) p = (X.col p).tail[i]'(by simp; omega) := by
        rw [List.getElem_tail]
        have := Arr2.col_getD (A := X) (i := i + 1) (j := p) hi
        rw [getD_getElem 0 (by simpa using hi)] at this
        exact this.symm
      rw [this]
      exact List.getElem_mem _
  have hga : ∀ X ∈ Xs, ∀ p < P, ∃ i < X.rows, X.get i p = (g X).getD p 0 := by
    intro X hX' p hp
    have hpc : p < X.cols := by rw [(hX X hX').2]; exact hp
    rw [vmk_getD_lt hpc]
    rcases foldl_attained hc (X.col p).tail (X.get 0 p) with e | e
    · exact ⟨0, (hX X hX').1, e.symm⟩
    · obtain ⟨i, hi, e⟩ := List.getElem_of_mem (List.mem_of_mem_tail e)
      have hi' : i < X.rows := by simpa using hi
      refine ⟨i, hi', ?_⟩
      rw [← e, ← Arr2.col_getD (A := X) (i := i) (j := p) hi', getD_getElem 0 hi]
  refine ⟨_, hok, ?_⟩
  cases Xs with
  | nil => exact absurd rfl hne
  | cons X0 Xs =>
    simp only [List.map_cons, List.tail_cons, List.headD_cons]
    have h0 : (g X0).length = P := by simp [g, (hX X0 (by simp)).2]
    obtain ⟨i1, i2⟩ := foldl_zip2_axis f (P := P) (Xs.map g) (g X0) h0 (by
      intro x hx
      simp only [List.mem_map] at hx
      obtain ⟨X, hX', rfl⟩ := hx
      simp [g, (hX X (by simp [hX'])).2])
    refine ⟨i1, fun p hp X hX' i hi => ?_, fun p hp => ?_⟩
    · rw [i2 p hp]
      obtain ⟨b1, b2⟩ := foldl_bound hrefl htrans hl hr ((Xs.map g).map fun x => x.getD p 0) ((g X0).getD p 0)
      refine htrans _ _ _ ?_ (hg X hX' p hp i hi)
      simp only [List.mem_cons] at hX'
      rcases hX' with rfl | hX'
      · exact b1
      · refine b2 _ ?_
        rw [List.map_map]
        exact List.mem_map_of_mem (f := (fun x : List ℝ => x.getD p 0) ∘ g) hX'
    · rw [i2 p hp]
      rcases foldl_attained hc ((Xs.map g).map fun x => x.getD p 0) ((g X0).getD p 0) with e | e
      · rw [e]
        obtain ⟨i, hi, e'⟩ := hga X0 (by simp) p hp
        exact ⟨X0, by simp, i, hi, e'⟩
      · rw [List.map_map] at e
        obtain ⟨X, hX', e'⟩ := List.mem_map.1 e
        obtain ⟨i, hi, e''⟩ := hga X (by simp [hX']) p hp
        exact ⟨X, by simp [hX'], i, hi, by rw [e'', List.map_map]; exact e'⟩

/-- the number of grid cells requested for axis `p`: the user's `m[p]`, or the average number of inputs per output -/
def cellsFor (Xs : List (Arr2 ℝ)) (m : GridArg) (p : ℕ) (k : ℕ) : Prop :=
  match m.vals with
  | none => k = (Xs.map Arr2.rows).sum / Xs.length
  | some v => v.getD p 0 = k

/-- some input is strictly below another input, above the user's `lo` or below the user's `hi` along axis `p`: the range
to cover is not a single point -/
def NonDegenerate (Xs : List (Arr2 ℝ)) (lo hi : GridArg) (p : ℕ) : Prop :=
  ∃ X ∈ Xs, ∃ i < X.rows,
    (∃ X' ∈ Xs, ∃ i' < X'.rows, X.get i p < X'.get i' p) ∨
    (∃ l, lo.vals = some l ∧ l.getD p 0 < X.get i p) ∨
    (∃ h, hi.vals = some h ∧ X.get i p < h.getD p 0)

/-- the values along axis `p` of the inputs, and of the user's bound if there is one -/
def valuesAlong (Xs : List (Arr2 ℝ)) (bound : GridArg) (p : ℕ) : Set ℝ :=
  {x | (∃ X ∈ Xs, ∃ i < X.rows, X.get i p = x) ∨ ∃ v, bound.vals = some v ∧ v.getD p 0 = x}

theorem linspace_length (l h : ℝ) (n : ℕ) : (linspace l h n).length = n := by simp [linspace]

/-- C21: for 2-D inputs with the same number `P` of columns, each output with at least one input, optional `lo`, `hi`,
`m` of length `P` with positive integer sizes, and a non-degenerate range on each axis, `autogrid` succeeds and returns
one equispaced increasing grid per axis with `m + 4` points; two grid points lie at or below every input and the user's
`lo`, two lie at or above every input and the user's `hi` — so no interpolation at an input is clamped: its position
is in a cell `c` with `1 ≤ c` and `c + 2 < len(grid)`. The grid extends exactly two `m`-ths of the range beyond the least and the greatest of
these values. -/
theorem C21_autogrid_brackets (Xs : List (Arr2 ℝ)) (P : ℕ) (lo hi m : GridArg) (hne : Xs ≠ [])
    (hX : ∀ X ∈ Xs, 0 < X.rows ∧ X.cols = P) (hlo : lo.fits P) (hhi : hi.fits P) (hm : m.fits P)
    (hmpos : ∀ v, m.vals = some v → ∀ p < P, ∃ k : ℕ, 0 < k ∧ v.getD p 0 = k)
    (hnd : ∀ p < P, NonDegenerate Xs lo hi p) :
    ∃ r, autogrid Xs lo hi m = .ok r ∧ r.grids.length = P ∧
      ∀ p < P, ∃ g, g = r.grids.getD p [] ∧ ∃ g0 h k, 0 < h ∧ Equispaced g g0 h ∧ cellsFor Xs m p k ∧ g.length = k + 4 ∧
        (∀ X ∈ Xs, ∀ i < X.rows, g.getD 1 0 ≤ X.get i p ∧ X.get i p < g.getD (g.length - 2) 0 ∧
          ∃ c : ℕ, 1 ≤ c ∧ c + 2 < g.length ∧ ⌊(X.get i p - g0) / h⌋ = c) ∧
        (∀ v, lo.vals = some v → g.getD 1 0 ≤ v.getD p 0) ∧
        (∀ v, hi.vals = some v → v.getD p 0 ≤ g.getD (g.length - 2) 0) ∧
        ∃ L H, IsLeast (valuesAlong Xs lo p) L ∧ IsGreatest (valuesAlong Xs hi p) H ∧
          g.getD 0 0 = L - 2 * ((H - L) / k) ∧ g.getD (g.length - 1) 0 = H + 2 * ((H - L) / k) := by
  obtain ⟨mins, e1, l1, b1, a1⟩ := axis_fold (f := min) (R := (· ≤ ·)) (fun _ => le_rfl) (fun _ _ _ => le_trans)
    (fun a b => min_le_left a b) (fun a b => min_le_right a b) (fun a b => min_choice a b) hne hX
  obtain ⟨maxs, e2, l2, b2, a2⟩ := axis_fold (f := max) (R := (· ≥ ·)) (fun _ => le_rfl) (fun _ _ _ h h' => le_trans h' h)
    (fun a b => le_max_left a b) (fun a b => le_max_right a b) (fun a b => max_choice a b) hne hX
  set maxLo := mins.tail.foldl (zip2 min) (mins.headD []) with hmaxLo
  set minHi := maxs.tail.foldl (zip2 max) (maxs.headD []) with hminHi
  set mv : List ℝ := (match m.vals with
        | none => vmk P fun _ => (((Xs.map Arr2.rows).sum / Xs.length : ℕ) : ℝ)
        | some v => v) with hmv
  set lov : List ℝ := (match lo.vals with | none => maxLo | some v => zip2 min v maxLo) with hlov
  set hiv : List ℝ := (match hi.vals with | none => minHi | some v => zip2 max v minHi) with hhiv
  have lmv : mv.length = P := by
    rw [hmv]; cases h : m.vals with
    | none => simp
    | some v => exact hm v h
  have llov : lov.length = P := by
    rw [hlov]; cases h : lo.vals with
    | none => exact l1
    | some v => exact zip2_length _ (hlo v h) l1
  have lhiv : hiv.length = P := by
    rw [hhiv]; cases h : hi.vals with
    | none => exact l2
    | some v => exact zip2_length _ (hhi v h) l2
  have hk : ∀ p < P, ∃ k : ℕ, 0 < k ∧ mv.getD p 0 = k ∧ cellsFor Xs m p k := by
    intro p hp
    rw [hmv]; unfold cellsFor
    cases h : m.vals with
    | none =>
      refine ⟨_, ?_, vmk_getD_lt hp, rfl⟩
      have : ∀ l : List (Arr2 ℝ), (∀ X ∈ l, 0 < X.rows) → l.length ≤ (l.map Arr2.rows).sum := by
        intro l hl
        induction l with
        | nil => simp
        | cons X l ih =>
          have h1 := ih fun Y hY => hl Y (by simp [hY])
          have h2 := hl X (by simp)
          simp only [List.length_cons, List.map_cons, List.sum_cons]; omega
      exact Nat.div_pos (this Xs fun X hX' => (hX X hX').1) (List.length_pos_iff.2 hne)
    | some v =>
      obtain ⟨k, k0, hk⟩ := hmpos v h p hp
      exact ⟨k, k0, hk, hk⟩
  -- bounds of the range
  have hL : ∀ p < P, (∀ X ∈ Xs, ∀ i < X.rows, lov.getD p 0 ≤ X.get i p) ∧ (∀ v, lo.vals = some v → lov.getD p 0 ≤ v.getD p 0) := by
    intro p hp
    rw [hlov]
    cases h : lo.vals with
    | none => exact ⟨fun X hX' i hi => b1 p hp X hX' i hi, fun v hv => by cases hv⟩
    | some v =>
      simp only
      rw [zip2_getD _ (hlo v h) l1 hp]
      refine ⟨fun X hX' i hi => (min_le_right _ _).trans (b1 p hp X hX' i hi), fun v' hv => ?_⟩
      obtain rfl := Option.some.inj hv
      exact min_le_left _ _
  have hH : ∀ p < P, (∀ X ∈ Xs, ∀ i < X.rows, X.get i p ≤ hiv.getD p 0) ∧ (∀ v, hi.vals = some v → v.getD p 0 ≤ hiv.getD p 0) := by
    intro p hp
    rw [hhiv]
    cases h : hi.vals with
    | none => exact ⟨fun X hX' i hi => b2 p hp X hX' i hi, fun v hv => by cases hv⟩
    | some v =>
      simp only
      rw [zip2_getD _ (hhi v h) l2 hp]
      refine ⟨fun X hX' i hi => (b2 p hp X hX' i hi).trans (le_max_right _ _), fun v' hv => ?_⟩
      obtain rfl := Option.some.inj hv
      exact le_max_left _ _
  have hLa : ∀ p < P, lov.getD p 0 ∈ valuesAlong Xs lo p := by
    intro p hp
    rw [hlov]
    cases h : lo.vals with
    | none => exact .inl (a1 p hp)
    | some v =>
      simp only
      rw [zip2_getD _ (hlo v h) l1 hp]
      rcases min_choice (v.getD p 0) (maxLo.getD p 0) with e | e
      · exact .inr ⟨v, h, e.symm⟩
      · rw [e]; exact .inl (a1 p hp)
  have hHa : ∀ p < P, hiv.getD p 0 ∈ valuesAlong Xs hi p := by
    intro p hp
    rw [hhiv]
    cases h : hi.vals with
    | none => exact .inl (a2 p hp)
    | some v =>
      simp only
      rw [zip2_getD _ (hhi v h) l2 hp]
      rcases max_choice (v.getD p 0) (minHi.getD p 0) with e | e
      · exact .inr ⟨v, h, e.symm⟩
      · rw [e]; exact .inl (a2 p hp)
  have hLH : ∀ p < P, lov.getD p 0 < hiv.getD p 0 := by
    intro p hp
    obtain ⟨X, hX', i, hi', h⟩ := hnd p hp
    rcases h with ⟨X', hX'', i', hi'', h⟩ | ⟨l, hl, h⟩ | ⟨u, hu, h⟩
    · exact ((hL p hp).1 X hX' i hi').trans_lt (h.trans_le ((hH p hp).1 X' hX'' i' hi''))
    · exact ((hL p hp).2 l hl).trans_lt (h.trans_le ((hH p hp).1 X hX' i hi'))
    · exact ((hL p hp).1 X hX' i hi').trans_lt (h.trans_le ((hH p hp).2 u hu))
  set delta := zip2 (· / ·) (zip2 (· - ·) hiv lov) mv with hdelta
  set lov' := zip2 (fun l d => l - 2 * d) lov delta with hlov'
  set hiv' := zip2 (fun h d => h + 2 * d) hiv delta with hhiv'
  have ld : delta.length = P := zip2_length _ (zip2_length _ lhiv llov) lmv
  have ll' : lov'.length = P := zip2_length _ llov ld
  have lh' : hiv'.length = P := zip2_length _ lhiv ld
  have hneg : ¬ ∃ mm ∈ mv.map (· + 4), mm ≤ -1 := by
    rintro ⟨mm, hmm, h⟩
    simp only [List.mem_map] at hmm
    obtain ⟨a, ha, rfl⟩ := hmm
    obtain ⟨p, hp, rfl⟩ := List.getElem_of_mem ha
    obtain ⟨k, k0, hk, -⟩ := hk p (lmv ▸ hp)
    rw [getD_getElem 0 hp] at hk
    rw [hk] at h
    have : (0 : ℝ) ≤ k := Nat.cast_nonneg k
    linarith
  have hfits : (X0 : Arr2 ℝ) → X0 ∈ Xs → X0.cols = P := fun X0 h => (hX X0 h).2
  refine ⟨{ grids := List.zipWith (fun (lh : ℝ × ℝ) mm => linspace lh.1 lh.2 (pyInt mm)) (lov'.zip hiv') (mv.map (· + 4)),
            mAfter := m.afterUpdate (mv.map (· + 4)) }, ?_, ?_, ?_⟩
  · cases Xs with
    | nil => exact absurd rfl hne
    | cons X0 Xs =>
      have hc : X0.cols = P := (hX X0 (by simp)).2
      unfold autogrid
      simp only [hc, hlo, hhi, hm, not_true, if_false, e1, e2, ok_bind]
      exact if_neg hneg
  · simp [ll', lh', lmv]
  · intro p hp
    obtain ⟨k, k0, hk1, hk2⟩ := hk p hp
    refine ⟨_, rfl, ?_⟩
    have hg : (List.zipWith (fun (lh : ℝ × ℝ) mm => linspace lh.1 lh.2 (pyInt mm)) (lov'.zip hiv') (mv.map (· + 4))).getD p [] =
        linspace (lov'.getD p 0) (hiv'.getD p 0) (k + 4) := by
      have q1 : p < lov'.length := ll' ▸ hp
      have q2 : p < hiv'.length := lh' ▸ hp
      have q3 : p < mv.length := lmv ▸ hp
      rw [getD_getElem [] (by simp [q1, q2, q3])]
      simp only [List.getElem_zipWith, List.getElem_zip, List.getElem_map]
      rw [getD_getElem 0 q1, getD_getElem 0 q2]
      congr 1
      rw [getD_getElem 0 q3] at hk1
      rw [hk1]
      unfold pyInt
      rw [show (k : ℝ) + 4 = ((k + 4 : ℕ) : ℝ) by push_cast; ring, Nat.floor_natCast]
    simp only [hg]
    have hd : delta.getD p 0 = (hiv.getD p 0 - lov.getD p 0) / k := by
      rw [hdelta, zip2_getD _ (zip2_length _ lhiv llov) lmv hp, zip2_getD _ lhiv llov hp, hk1]
    have hl' : lov'.getD p 0 = lov.getD p 0 - 2 * ((hiv.getD p 0 - lov.getD p 0) / k) := by
      rw [hlov', zip2_getD _ llov ld hp, hd]
    have hh' : hiv'.getD p 0 = hiv.getD p 0 + 2 * ((hiv.getD p 0 - lov.getD p 0) / k) := by
      rw [hhiv', zip2_getD _ lhiv ld hp, hd]
    have kp : (0 : ℝ) < k := by exact_mod_cast k0
    have hlt := hLH p hp
    set L := lov.getD p 0
    set H := hiv.getD p 0
    set D := (H - L) / k with hD
    have Dp : 0 < D := div_pos (by linarith) kp
    have HL : H = L + k * D := by rw [hD]; field_simp; ring
    set h := (hiv'.getD p 0 - lov'.getD p 0) / (((k + 4 : ℕ) : ℝ) - 1) with hh
    have k3 : (0 : ℝ) < k + 3 := by linarith
    have heq : h = D * ((k + 4) / (k + 3)) := by
      rw [hh, hl', hh', HL]; push_cast
      rw [show (k : ℝ) + 4 - 1 = k + 3 by ring]
      field_simp
      ring
    have hp0 : 0 < h := by rw [heq]; positivity
    have hke : h * (k + 3) = D * (k + 4) := by rw [heq]; field_simp
    have heqs : Equispaced (linspace (lov'.getD p 0) (hiv'.getD p 0) (k + 4)) (L - 2 * D) h := by
      intro i hi
      rw [linspace_length] at hi
      unfold linspace
      rw [vmk_getD_lt hi, hh, hl']
    have g1 : (linspace (lov'.getD p 0) (hiv'.getD p 0) (k + 4)).getD 1 0 = L - 2 * D + h := by
      rw [heqs 1 (by rw [linspace_length]; omega)]; simp
    have g2 : (linspace (lov'.getD p 0) (hiv'.getD p 0) (k + 4)).getD (k + 4 - 2) 0 = L - 2 * D + (k + 2) * h := by
      rw [heqs _ (by rw [linspace_length]; omega), show k + 4 - 2 = k + 2 by omega]; push_cast; ring
    have below : L - 2 * D + h ≤ L := by nlinarith
    have above : H < L - 2 * D + (k + 2) * h := by
      rw [HL]
      have : D * (k + 4) * (k + 2) < D * (k + 4) * (k + 3) := by
        apply mul_lt_mul_of_pos_left (by linarith); positivity
      have : (k + 2) * D < (k + 2) * h := by
        apply mul_lt_mul_of_pos_left _ (by linarith)
        rw [heq]
        have : (1 : ℝ) < (k + 4) / (k + 3) := by rw [one_lt_div k3]; linarith
        nlinarith
      linarith
    refine ⟨L - 2 * D, h, k, hp0, heqs, hk2, linspace_length _ _ _, ?_, ?_, ?_, L, H, ⟨hLa p hp, ?_⟩, ⟨hHa p hp, ?_⟩, ?_, ?_⟩
    · intro X hX' i hi'
      rw [linspace_length, g1, g2]
      have x1 := (hL p hp).1 X hX' i hi'
      have x2 := (hH p hp).1 X hX' i hi'
      have y1 : L - 2 * D + h ≤ X.get i p := below.trans x1
      have y2 : X.get i p < L - 2 * D + (k + 2) * h := x2.trans_lt above
      refine ⟨y1, y2, ?_⟩
      have f1 : (1 : ℝ) ≤ (X.get i p - (L - 2 * D)) / h := by rw [le_div_iff₀ hp0]; linarith
      have f2 : (X.get i p - (L - 2 * D)) / h < ((k + 2 : ℕ) : ℝ) := by rw [div_lt_iff₀ hp0]; push_cast; linarith
      have q1 : (1 : ℤ) ≤ ⌊(X.get i p - (L - 2 * D)) / h⌋ := by rw [Int.le_floor]; exact_mod_cast f1
      have q2 : ⌊(X.get i p - (L - 2 * D)) / h⌋ < ((k + 2 : ℕ) : ℤ) := by rw [Int.floor_lt]; exact_mod_cast f2
      obtain ⟨c, hc⟩ := Int.eq_ofNat_of_zero_le (show 0 ≤ ⌊(X.get i p - (L - 2 * D)) / h⌋ by omega)
      exact ⟨c, by omega, by omega, hc⟩
    · intro v hv
      rw [g1]
      exact below.trans ((hL p hp).2 v hv)
    · intro v hv
      rw [linspace_length, g2]
      exact ((hH p hp).2 v hv).trans above.le
    · rintro x (⟨X, hX', i, hi', rfl⟩ | ⟨v, hv, rfl⟩)
      · exact (hL p hp).1 X hX' i hi'
      · exact (hL p hp).2 v hv
    · rintro x (⟨X, hX', i, hi', rfl⟩ | ⟨v, hv, rfl⟩)
      · exact (hH p hp).1 X hX' i hi'
      · exact (hH p hp).2 v hv
    · rw [heqs 0 (by rw [linspace_length]; omega)]
      push_cast
      ring
    · rw [linspace_length, heqs _ (by rw [linspace_length]; omega), show k + 4 - 1 = k + 3 by omega]
      push_cast
      linear_combination hke - HL

/-- a concrete call meeting the hypotheses of C21: two outputs in one dimension, user-given `lo` and `m` -/
example : ∃ r, autogrid [⟨2, 1, [0, 1]⟩, ⟨1, 1, [3]⟩] (.list [0.5]) .none (.ndarray [5]) = .ok r ∧ (r.grids.getD 0 []).length = 9 := by
  obtain ⟨r, hr, -, h⟩ := C21_autogrid_brackets [⟨2, 1, [0, 1]⟩, ⟨1, 1, [3]⟩] 1 (.list [0.5]) .none (.ndarray [5]) (by simp)
    (by intro X hX; simp only [List.mem_cons, List.not_mem_nil, or_false] at hX; rcases hX with rfl | rfl <;> simp)
    (by intro v hv; simp only [GridArg.vals, Option.some.injEq] at hv; subst hv; rfl)
    (by intro v hv; simp [GridArg.vals] at hv)
    (by intro v hv; simp only [GridArg.vals, Option.some.injEq] at hv; subst hv; rfl)
    (by
      intro v hv p hp
      simp only [GridArg.vals, Option.some.injEq] at hv; subst hv
      have : p = 0 := by omega
      subst this
      exact ⟨5, by norm_num, by norm_num⟩)
    (by
      intro p hp
      have : p = 0 := by omega
      subst this
      exact ⟨⟨2, 1, [0, 1]⟩, by simp, 0, by norm_num, Or.inl ⟨⟨1, 1, [3]⟩, by simp, 0, by norm_num, by norm_num [Arr2.get]⟩⟩)
  obtain ⟨g, rfl, g0, h', k, -, -, hk, hl, -⟩ := h 0 (by norm_num)
  refine ⟨r, hr, ?_⟩
  simp only [cellsFor, GridArg.vals, List.getD_cons_zero] at hk
  have : k = 5 := by exact_mod_cast hk.symm
  rw [hl, this]

/-! ### C22 -/

/-- C22, the part that holds: the caller's `m` is unchanged when it is `None` or a list (`lo` and `hi` are only read).
Missing: an ndarray `m`, see `C22_ndarray_m_modified`. -/
theorem C22_list_m_unchanged_partial (Xs : List (Arr2 ℝ)) (lo hi m : GridArg) (hm : ∀ v, m ≠ .ndarray v) {r : AutogridResult}
    (h : autogrid Xs lo hi m = .ok r) : r.mAfter = m := by
  cases Xs with
  | nil => cases h
  | cons X0 Xs =>
    unfold autogrid at h
    simp only at h
    split_ifs at h
    · simp only [bind_ok] at h
      obtain ⟨_, -, _, -, h⟩ := h
      cases h
    simp only [bind_ok] at h
    obtain ⟨_, -, _, -, h⟩ := h
    have := pure_ok.1 h
    rw [← this]
    cases m with
    | none => rfl
    | list v => rfl
    | ndarray v => exact absurd rfl (hm v)

/-- C22 is false of the code: an ndarray passed as `m` is increased by four in place on every successful call. -/
theorem C22_ndarray_m_modified (Xs : List (Arr2 ℝ)) (lo hi : GridArg) (v : List ℝ) {r : AutogridResult}
    (h : autogrid Xs lo hi (.ndarray v) = .ok r) : r.mAfter = .ndarray (v.map (· + 4)) := by
  cases Xs with
  | nil => cases h
  | cons X0 Xs =>
    unfold autogrid at h
    simp only at h
    split_ifs at h
    · simp only [bind_ok] at h
      obtain ⟨_, -, _, -, h⟩ := h
      cases h
    simp only [bind_ok] at h
    obtain ⟨_, -, _, -, h⟩ := h
    have := pure_ok.1 h
    rw [← this]
    rfl

/-- C22 is false of the code, as the caller sees it: calling `autogrid` twice with the same arguments, `m` being an
ndarray of positive integers, gives grids with `k + 4` points the first time and `k + 8` the second. -/
theorem C22_repeated_call_differs (Xs : List (Arr2 ℝ)) (P : ℕ) (lo hi : GridArg) (v : List ℝ) (hne : Xs ≠ [])
    (hX : ∀ X ∈ Xs, 0 < X.rows ∧ X.cols = P) (hlo : lo.fits P) (hhi : hi.fits P) (hv : v.length = P)
    (hmpos : ∀ p < P, ∃ k : ℕ, 0 < k ∧ v.getD p 0 = k) (hnd : ∀ p < P, NonDegenerate Xs lo hi p) :
    ∃ r r', autogrid Xs lo hi (.ndarray v) = .ok r ∧ autogrid Xs lo hi r.mAfter = .ok r' ∧
      ∀ p < P, (r'.grids.getD p []).length = (r.grids.getD p []).length + 4 := by
  obtain ⟨r, hr, -, h⟩ := C21_autogrid_brackets Xs P lo hi (.ndarray v) hne hX hlo hhi
    (by intro w hw; obtain rfl := Option.some.inj hw; exact hv)
    (by intro w hw; obtain rfl := Option.some.inj hw; exact hmpos) hnd
  have hafter := C22_ndarray_m_modified Xs lo hi v hr
  have hget : ∀ p < P, (v.map (· + 4)).getD p 0 = v.getD p 0 + 4 := by
    intro p hp
    have : p < v.length := hv ▸ hp
    simp [this]
  obtain ⟨r', hr', -, h'⟩ := C21_autogrid_brackets Xs P lo hi r.mAfter hne hX hlo hhi
    (by intro w hw; rw [hafter] at hw; obtain rfl := Option.some.inj hw; simpa using hv)
    (by
      intro w hw p hp
      rw [hafter] at hw
      obtain rfl := Option.some.inj hw
      obtain ⟨k, k0, hk⟩ := hmpos p hp
      exact ⟨k + 4, by omega, by rw [hget p hp, hk]; push_cast; ring⟩) hnd
  refine ⟨r, r', hr, hr', fun p hp => ?_⟩
  obtain ⟨g, rfl, _, _, k, -, -, hk, hl, -⟩ := h p hp
  obtain ⟨g', rfl, _, _, k', -, -, hk', hl', -⟩ := h' p hp
  rw [hl, hl']
  simp only [cellsFor, GridArg.vals] at hk
  simp only [hafter, cellsFor, GridArg.vals] at hk'
  rw [hget p hp, hk] at hk'
  have : k' = k + 4 := by exact_mod_cast hk'.symm
  omega

end Verif
