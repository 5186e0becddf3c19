import Verif.Spec.Stretched
import Verif.Proofs.Isomorphic
import Verif.Proofs.Shift

/-! Lemmas for C87: the units of the inputs. -/

namespace Verif

theorem stretched_get (s : ℕ → ℝ) {X : Arr2 ℝ} {i c : ℕ} (hi : i < X.rows) (hc : c < X.cols) : (X.stretched s).get i c = X.get i c * s c := Arr2.of_get hi hc

theorem takeCols_stretched (s : ℕ → ℝ) (X : Arr2 ℝ) (ad : List ℕ) : takeCols (X.stretched s) ad = (takeCols X ad).map (Arr2.stretched (movedAt s ad)) := by
  unfold takeCols
  by_cases h : ∀ c ∈ ad, c < X.cols
  · rw [if_pos h, if_pos (show ∀ c ∈ ad, c < (X.stretched s).cols from h)]
    show Except.ok _ = Except.ok _
    congr 1
    refine Arr2.of_congr fun i hi k hk => ?_
    have hk' : k < ad.length := hk
    have hc : ad.getD k 0 < X.cols := h _ (by rw [List.getD_eq_getElem _ _ hk']; exact List.getElem_mem hk')
    rw [stretched_get (X := X) s hi hc, Arr2.of_get (show i < X.rows from hi) hk]
    rfl
  · rw [if_neg h, if_neg (show ¬ ∀ c ∈ ad, c < (X.stretched s).cols from h)]
    rfl

theorem takeColsAll_stretched (s : ℕ → ℝ) (Xs : List (Arr2 ℝ)) (ad : List ℕ) :
    mapExcept (fun X => takeCols X ad) (Xs.map (Arr2.stretched s)) = (mapExcept (fun X => takeCols X ad) Xs).map (List.map (Arr2.stretched (movedAt s ad))) := by
  rw [mapExcept_map]
  exact mapExcept_moved fun X _ => takeCols_stretched s X ad

/-- a vector in other units -/
noncomputable def stretchV (s : ℕ → ℝ) (v : List ℝ) : List ℝ := v.mapIdx fun j x => x * s j

theorem stretchV_length (s : ℕ → ℝ) (v : List ℝ) : (stretchV s v).length = v.length := List.length_mapIdx

theorem stretchV_vmk (s : ℕ → ℝ) (n : ℕ) (f : ℕ → ℝ) : stretchV s (vmk n f) = vmk n fun j => f j * s j := by
  refine List.ext_getElem (by simp [stretchV]) fun i h1 h2 => ?_
  simp [stretchV]

theorem stretchV_cons (s : ℕ → ℝ) (x : ℝ) (v : List ℝ) : stretchV s (x :: v) = (x * s 0) :: stretchV (fun j => s (j + 1)) v := by
  unfold stretchV
  rw [List.mapIdx_cons]

/-- an operation that does not depend on the unit -/
def Homogeneous (f : ℝ → ℝ → ℝ) : Prop := ∀ x y s, 0 < s → f (x * s) (y * s) = f x y * s

theorem min_homogeneous : Homogeneous min := fun x y s hs => (min_mul_of_nonneg x y hs.le).symm

theorem max_homogeneous : Homogeneous max := fun x y s hs => (max_mul_of_nonneg x y hs.le).symm

theorem zip2_stretch {f : ℝ → ℝ → ℝ} (hf : Homogeneous f) : ∀ {s : ℕ → ℝ}, (∀ c, 0 < s c) → ∀ (a b : List ℝ), zip2 f (stretchV s a) (stretchV s b) = stretchV s (zip2 f a b)
  | s, _, [], b => rfl
  | s, _, x :: a, [] => by simp [stretchV, zip2]
  | s, h, x :: a, y :: b => by
    rw [stretchV_cons, stretchV_cons]
    show f _ _ :: zip2 f _ _ = _
    rw [hf _ _ _ (h 0), zip2_stretch hf (fun c => h (c + 1)) a b]
    exact (stretchV_cons _ _ _).symm

theorem zip2_div_stretch : ∀ (s : ℕ → ℝ) (a b : List ℝ), zip2 (· / ·) (stretchV s a) b = stretchV s (zip2 (· / ·) a b)
  | s, [], b => rfl
  | s, x :: a, [] => by simp [stretchV, zip2]
  | s, x :: a, y :: b => by
    rw [stretchV_cons]
    show (x * s 0 / y) :: zip2 (· / ·) _ _ = _
    rw [zip2_div_stretch _ a b, mul_div_right_comm]
    exact (stretchV_cons _ _ _).symm

theorem foldl_stretch {f : ℝ → ℝ → ℝ} (hf : Homogeneous f) {s : ℝ} (hs : 0 < s) : ∀ (l : List ℝ) (a : ℝ), (l.map (· * s)).foldl f (a * s) = l.foldl f a * s
  | [], a => rfl
  | x :: l, a => by rw [List.map_cons, List.foldl_cons, List.foldl_cons, hf _ _ _ hs, foldl_stretch hf hs l]

theorem foldl_zip2_stretch {f : ℝ → ℝ → ℝ} (hf : Homogeneous f) {s : ℕ → ℝ} (hs : ∀ c, 0 < s c) :
    ∀ (l : List (List ℝ)) (a : List ℝ), (l.map (stretchV s)).foldl (zip2 f) (stretchV s a) = stretchV s (l.foldl (zip2 f) a)
  | [], a => rfl
  | x :: l, a => by rw [List.map_cons, List.foldl_cons, List.foldl_cons, zip2_stretch hf hs, foldl_zip2_stretch hf hs l]

theorem axisReduce_stretched {f : ℝ → ℝ → ℝ} (hf : Homogeneous f) {s : ℕ → ℝ} (hs : ∀ c, 0 < s c) (X : Arr2 ℝ) : axisReduce f (X.stretched s) = (axisReduce f X).map (stretchV s) := by
  unfold axisReduce
  by_cases h : X.rows = 0
  · rw [if_pos h, if_pos (show (X.stretched s).rows = 0 from h)]
    rfl
  · rw [if_neg h, if_neg (show ¬ (X.stretched s).rows = 0 from h)]
    show Except.ok _ = Except.ok _
    rw [stretchV_vmk]
    congr 1
    refine vmk_congr fun j hj => ?_
    have hj' : j < X.cols := hj
    rw [stretched_get s (by omega) hj', ← foldl_stretch hf (hs j)]
    congr 1
    unfold Arr2.col vmk
    rw [← List.map_tail, ← List.map_tail, List.map_map]
    refine List.map_congr_left fun i hi => ?_
    exact stretched_get s (List.mem_range.1 (List.mem_of_mem_tail hi)) hj'

theorem linspace_stretch (l h s : ℝ) (n : ℕ) : linspace (l * s) (h * s) n = (linspace l h n).map (· * s) := by
  unfold linspace vmk
  rw [List.map_map]
  refine List.map_congr_left fun i _ => ?_
  simp only [Function.comp, ← sub_mul]
  ring

/-- axes in other units -/
noncomputable def stretchAxes (s : ℕ → ℝ) (axes : List (List ℝ)) : List (List ℝ) := axes.mapIdx fun j g => g.map (· * s j)

theorem stretchAxes_cons (s : ℕ → ℝ) (g : List ℝ) (axes : List (List ℝ)) : stretchAxes s (g :: axes) = g.map (· * s 0) :: stretchAxes (fun j => s (j + 1)) axes := by
  unfold stretchAxes
  rw [List.mapIdx_cons]

theorem axes_stretch : ∀ (s : ℕ → ℝ) (lo hi mv : List ℝ),
    List.zipWith (fun (lh : ℝ × ℝ) mm => linspace lh.1 lh.2 (pyInt mm)) ((stretchV s lo).zip (stretchV s hi)) mv =
      stretchAxes s (List.zipWith (fun (lh : ℝ × ℝ) mm => linspace lh.1 lh.2 (pyInt mm)) (lo.zip hi) mv)
  | s, [], hi, mv => by simp [stretchV, stretchAxes]
  | s, x :: lo, [], mv => by simp [stretchV, stretchAxes]
  | s, x :: lo, y :: hi, [] => by simp [stretchAxes]
  | s, x :: lo, y :: hi, m :: mv => by
    rw [stretchV_cons, stretchV_cons, List.zip_cons_cons, List.zipWith_cons_cons, axes_stretch _ lo hi mv, List.zip_cons_cons, List.zipWith_cons_cons, stretchAxes_cons,
      linspace_stretch]

/-- bounds given to `autogrid` in other units -/
def GridArg.StretchedBy (s : ℕ → ℝ) (a a' : GridArg) : Prop := a'.vals = a.vals.map (stretchV s)

theorem fits_stretched {s : ℕ → ℝ} {a a' : GridArg} (h : a.StretchedBy s a') (P : ℕ) : a'.fits P ↔ a.fits P := by
  unfold GridArg.fits
  rw [h]
  cases a.vals with
  | none => simp
  | some v => simp [stretchV_length]

theorem autogrid_stretched {s : ℕ → ℝ} (hs : ∀ c, 0 < s c) (Xs : List (Arr2 ℝ)) {lo lo' hi hi' : GridArg} (hlo : lo.StretchedBy s lo') (hhi : hi.StretchedBy s hi') (m : GridArg) :
    autogrid (Xs.map (Arr2.stretched s)) lo' hi' m = (autogrid Xs lo hi m).map fun g => { g with grids := stretchAxes s g.grids } := by
  cases Xs with
  | nil => rfl
  | cons X rest =>
    have e1 : mapExcept (axisReduce min) ((X :: rest).map (Arr2.stretched s)) = (mapExcept (axisReduce min) (X :: rest)).map (List.map (stretchV s)) := by
      rw [mapExcept_map]
      exact mapExcept_moved fun Y _ => axisReduce_stretched min_homogeneous hs Y
    have e2 : mapExcept (axisReduce max) ((X :: rest).map (Arr2.stretched s)) = (mapExcept (axisReduce max) (X :: rest)).map (List.map (stretchV s)) := by
      rw [mapExcept_map]
      exact mapExcept_moved fun Y _ => axisReduce_stretched max_homogeneous hs Y
    have e3 : ((X :: rest).map (Arr2.stretched s)).map Arr2.rows = (X :: rest).map Arr2.rows := by rw [List.map_map]; rfl
    rw [List.map_cons] at e1 e2 e3 ⊢
    unfold autogrid
    simp only [e1, e2, e3, List.length_cons, List.length_map]
    by_cases c1 : lo.fits X.cols
    swap
    · rw [if_pos c1, if_pos (show ¬ lo'.fits (X.stretched s).cols from fun c => c1 ((fits_stretched hlo _).1 c))]
      rfl
    rw [if_neg (not_not.2 c1), if_neg (not_not.2 (show lo'.fits (X.stretched s).cols from (fits_stretched hlo _).2 c1))]
    by_cases c2 : hi.fits X.cols
    swap
    · rw [if_pos c2, if_pos (show ¬ hi'.fits (X.stretched s).cols from fun c => c2 ((fits_stretched hhi _).1 c))]
      rfl
    rw [if_neg (not_not.2 c2), if_neg (not_not.2 (show hi'.fits (X.stretched s).cols from (fits_stretched hhi _).2 c2))]
    by_cases c3 : m.fits X.cols
    swap
    · rw [if_pos c3, if_pos (show ¬ m.fits (X.stretched s).cols from c3)]
      rfl
    rw [if_neg (not_not.2 c3), if_neg (not_not.2 (show m.fits (X.stretched s).cols from c3))]
    simp only [show (X.stretched s).cols = X.cols from rfl]
    cases h1 : mapExcept (axisReduce min) (X :: rest) with
    | error e => rfl
    | ok mins =>
      cases h2 : mapExcept (axisReduce max) (X :: rest) with
      | error e => rfl
      | ok maxs =>
        simp only [Except.map, ok_bind]
        have f1 : (List.map (stretchV s) mins).tail.foldl (zip2 min) ((List.map (stretchV s) mins).headD []) = stretchV s (mins.tail.foldl (zip2 min) (mins.headD [])) := by
          cases mins with
          | nil => rfl
          | cons a l => exact foldl_zip2_stretch min_homogeneous hs l a
        have f2 : (List.map (stretchV s) maxs).tail.foldl (zip2 max) ((List.map (stretchV s) maxs).headD []) = stretchV s (maxs.tail.foldl (zip2 max) (maxs.headD [])) := by
          cases maxs with
          | nil => rfl
          | cons a l => exact foldl_zip2_stretch max_homogeneous hs l a
        rw [f1, f2, hlo, hhi]
        generalize mins.tail.foldl (zip2 min) (mins.headD []) = mn
        generalize maxs.tail.foldl (zip2 max) (maxs.headD []) = mx
        have z1 := fun a b => zip2_stretch min_homogeneous hs a b
        have z2 := fun a b => zip2_stretch max_homogeneous hs a b
        have z3 : ∀ a b, zip2 (fun l d => l - 2 * d) (stretchV s a) (stretchV s b) = stretchV s (zip2 (fun l d => l - 2 * d) a b) :=
          zip2_stretch (f := fun l d => l - 2 * d) (fun x y s _ => by ring) hs
        have z4 : ∀ a b, zip2 (fun h d => h + 2 * d) (stretchV s a) (stretchV s b) = stretchV s (zip2 (fun h d => h + 2 * d) a b) :=
          zip2_stretch (f := fun h d => h + 2 * d) (fun x y s _ => by ring) hs
        have z5 : ∀ a b, zip2 (· - ·) (stretchV s a) (stretchV s b) = stretchV s (zip2 (· - ·) a b) := zip2_stretch (f := (· - ·)) (fun x y s _ => by ring) hs
        generalize lo.vals = L
        generalize hi.vals = H
        rcases L with _ | v <;> rcases H with _ | w <;> simp only [Option.map_none, Option.map_some, z1, z2, z5, zip2_div_stretch, z3, z4, axes_stretch] <;> split_ifs <;> rfl

theorem wrapOpt_stretched {s : ℕ → ℝ} {x x' : GridOpt} (h : GridOpt.Stretched s x x') (ad : List ℕ) : ExceptRel (GridArg.StretchedBy (movedAt s ad)) (wrapOpt x ad) (wrapOpt x' ad) := by
  cases x with
  | none =>
    cases x' with
    | none => exact rfl
    | scalar v => exact h.elim
    | vec v => exact h.elim
  | scalar v =>
    cases x' with
    | none => exact h.elim
    | scalar v' =>
      unfold wrapOpt
      by_cases hl : ad.length = 1
      · simp only [hl, if_true]
        show some [v'] = some (stretchV _ [v])
        rw [h (ad.getD 0 0), stretchV_cons]
        rfl
      · simp only [hl, if_false]
        exact rfl
    | vec v => exact h.elim
  | vec v =>
    cases x' with
    | none => exact h.elim
    | scalar v' => exact h.elim
    | vec v' =>
      have h : v' = vmk v.length fun c => v.getD c 0 * s c := h
      subst h
      unfold wrapOpt
      by_cases hl : ∀ c ∈ ad, c < v.length
      · simp only [vmk_length]
        rw [if_pos hl, if_pos hl]
        show some _ = some (stretchV _ _)
        congr 1
        refine List.ext_getElem (by simp [stretchV]) fun i h1 h2 => ?_
        have hi : i < ad.length := by simpa using h1
        simp only [stretchV, List.getElem_mapIdx, List.getElem_map, movedAt]
        rw [vmk_getD_lt (hl _ (List.getElem_mem hi)), List.getD_eq_getElem _ _ hi]
      · simp only [vmk_length]
        rw [if_neg hl, if_neg hl]
        exact rfl

theorem generateGrid_stretched {s : ℕ → ℝ} (hs : ∀ c, 0 < s c) {Xs : List (Arr2 ℝ)} {lo hi lo' hi' m : GridOpt} (hlo : GridOpt.Stretched s lo lo') (hhi : GridOpt.Stretched s hi hi')
    {ad : List ℕ} {g g' : GroupGrid} (hg : generateGrid Xs lo hi m ad = .ok g) (hg' : generateGrid (Xs.map (Arr2.stretched s)) lo' hi' m ad = .ok g') :
    g'.axes = stretchAxes (movedAt s ad) g.axes := by
  unfold generateGrid at hg hg'
  simp only [bind_ok, pure_ok] at hg hg'
  obtain ⟨a1, b1, a2, b2, a3, b3, Xa, b4, G, b5, d, -, W, -, rfl⟩ := hg
  obtain ⟨a1', b1', a2', b2', a3', b3', Xa', b4', G', b5', d', -, W', -, rfl⟩ := hg'
  have r1 := wrapOpt_stretched hlo ad
  have r2 := wrapOpt_stretched hhi ad
  rw [b1, b1'] at r1
  rw [b2, b2'] at r2
  rw [b3] at b3'; cases b3'
  rw [takeColsAll_stretched, b4] at b4'
  have b4' : Except.ok (Xa.map (Arr2.stretched (movedAt s ad))) = Except.ok (ε := PyErr) Xa' := b4'
  rw [← Except.ok.inj b4', autogrid_stretched (s := movedAt s ad) (fun c => hs _) Xa r1 r2, b5] at b5'
  have b5' : Except.ok _ = Except.ok (ε := PyErr) G' := b5'
  rw [← Except.ok.inj b5']

theorem generateGrids_get {Xs : List (Arr2 ℝ)} {lo hi m : GridOpt} {fk : FK} {G : List (List ℕ × GroupGrid)} (hg : generateGrids fk Xs lo hi m = .ok G) :
    ∀ ad ∈ fk.activeDims.map Prod.fst, ∃ g, generateGrid Xs lo hi m ad = .ok g ∧ dictGet G ad = some g := by
  unfold generateGrids at hg
  generalize fk.activeDims.map Prod.fst = keys at hg
  induction keys generalizing G with
  | nil => intro ad h; cases h
  | cons key keys ih =>
    simp only [mapExcept, bind_ok, pure_ok] at hg
    obtain ⟨x, ⟨g, g1, rfl⟩, ys, g2, rfl⟩ := hg
    intro ad had
    simp only [dictGet]
    by_cases e : key = ad
    · subst e
      exact ⟨g, g1, by simp⟩
    · obtain ⟨g', h1, h2⟩ := ih g2 ad ((List.mem_cons.1 had).resolve_left fun h => e h.symm)
      exact ⟨g', h1, by rw [if_neg e]; exact h2⟩

/-! ### kernels and weights -/

theorem Kern.stretched_doc {c : ℝ} (hc : 0 < c) (r : ℝ) : ∀ k : Kern, (k.stretched c).doc (r * c) = k.doc r
  | .rbf g a => by
    show Real.exp _ = Real.exp _
    congr 1
    field_simp
  | .matern32 g a => by
    show (1 + _) * Real.exp _ = (1 + _) * Real.exp _
    congr 2
    · field_simp
    · field_simp
  | .stdPeriodic g T a => by
    show Real.exp _ = Real.exp _
    rw [← mul_assoc, mul_div_mul_right _ _ hc.ne']
  | .identity a => by
    show (if r * c = 0 then (1 : ℝ) else 0) = if r = 0 then 1 else 0
    simp [hc.ne']
  | .scaled k v a => by
    show v * _ = v * _
    rw [stretched_doc hc r k]

theorem Kern.stretched_activeDims (c : ℝ) (k : Kern) : (k.stretched c).activeDims = k.activeDims := by
  cases k <;> rfl

theorem getD_mul (l : List ℝ) (s : ℝ) (i : ℕ) : (l.map (· * s)).getD i 0 = l.getD i 0 * s := by
  by_cases h : i < l.length
  · rw [map_getD_lt h _ _ 0]
  · rw [List.getD_eq_default _ _ (by rw [List.length_map]; omega), List.getD_eq_default _ _ (by omega), zero_mul]

theorem keysWeight_stretch (g : List ℝ) {s : ℝ} (hs : 0 < s) (x : ℝ) (j : ℕ) : keysWeight (g.map (· * s)) (x * s) j = keysWeight g x j := by
  unfold keysWeight
  rw [getD_mul, getD_mul, ← sub_mul, ← sub_mul, mul_div_mul_right _ _ hs.ne', List.length_map]

theorem lengths_stretch (s : ℕ → ℝ) (axes : List (List ℝ)) : (stretchAxes s axes).map List.length = axes.map List.length := by
  refine List.ext_getElem (by simp [stretchAxes]) fun i h1 h2 => ?_
  simp [stretchAxes]

theorem gridWeight_stretch : ∀ {s : ℕ → ℝ}, (∀ c, 0 < s c) → ∀ (axes : List (List ℝ)) {x x' : ℕ → ℝ}, (∀ k < axes.length, x' k = x k * s k) → ∀ p,
    gridWeight (stretchAxes s axes) x' p = gridWeight axes x p
  | s, _, [], x, x', _, p => rfl
  | s, hs, a :: axes, x, x', h, p => by
    rw [stretchAxes_cons]
    unfold gridWeight
    rw [lengths_stretch, h 0 (by simp), keysWeight_stretch a (hs 0), gridWeight_stretch (fun c => hs (c + 1)) axes fun k hk => h (k + 1) (by simpa using hk)]

theorem gridPoint_stretch : ∀ (s : ℕ → ℝ) (axes : List (List ℝ)) (p : ℕ), gridPoint (stretchAxes s axes) p = stretchV s (gridPoint axes p)
  | s, [], p => rfl
  | s, a :: axes, p => by
    rw [stretchAxes_cons]
    unfold gridPoint gridSize
    rw [lengths_stretch, getD_mul, gridPoint_stretch, stretchV_cons]

theorem stretchV_getD (s : ℕ → ℝ) (v : List ℝ) (i : ℕ) : (stretchV s v).getD i 0 = v.getD i 0 * s i := by
  by_cases h : i < v.length
  · rw [List.getD_eq_getElem _ _ (by rw [stretchV_length]; exact h), List.getD_eq_getElem _ _ h]
    simp [stretchV]
  · rw [List.getD_eq_default _ _ (by rw [stretchV_length]; omega), List.getD_eq_default _ _ (by omega), zero_mul]

theorem gridDistance_stretch {s : ℕ → ℝ} {c : ℝ} (hc : 0 < c) {axes : List (List ℝ)} (h : ∀ k < axes.length, s k = c) (p q : ℕ) :
    gridDistance (stretchAxes s axes) p q = gridDistance axes p q * c := by
  unfold gridDistance euclid
  rw [gridPoint_stretch, gridPoint_stretch, show (stretchAxes s axes).length = axes.length from List.length_mapIdx]
  rw [Finset.sum_congr rfl fun k hk => by
    rw [stretchV_getD, stretchV_getD, h k (Finset.mem_range.1 hk), ← sub_mul, mul_pow], ← Finset.sum_mul, Real.sqrt_mul' _ (sq_nonneg c), Real.sqrt_sq hc.le]

theorem distOn_stretch {s : ℕ → ℝ} {c : ℝ} (hc : 0 < c) {ad : List ℕ} (h : ∀ d ∈ ad, s d = c) {x x' z z' : ℕ → ℝ} (hx : ∀ d ∈ ad, x' d = x d * s d) (hz : ∀ d ∈ ad, z' d = z d * s d) :
    distOn ad x' z' = distOn ad x z * c := by
  unfold distOn
  rw [List.map_congr_left fun d hd => by rw [hx d hd, hz d hd, h d hd, ← sub_mul, mul_pow], List.sum_map_mul_right, Real.sqrt_mul' _ (sq_nonneg c), Real.sqrt_sq hc.le]

theorem Kern.stretched_noIdentity (c : ℝ) : ∀ {k : Kern}, k.noIdentity → (k.stretched c).noIdentity
  | .rbf _ _, h => h
  | .matern32 _ _, h => h
  | .stdPeriodic _ _ _, h => h
  | .identity _, h => h
  | .scaled k _ _, h => stretched_noIdentity c (k := k) h

/-- the parameters in the other units are sound, too -/
theorem stretched_sound {s : ℕ → ℝ} (hs : ∀ c, 0 < s c) {fk fk' : FK} (h : fk.Stretched s fk') (hso : fk.Sound) : fk'.Sound := by
  have hD : fk'.D = fk.D := by rw [h.same]
  have hQ : fk'.Q = fk.Q := h.count
  refine ⟨fun q hq => ?_, fun k hk => ?_, fun q hq d hd => ?_, fun d hd => ?_⟩
  · rw [hQ] at hq
    obtain ⟨c, c1, c2, c3⟩ := h.kernel q hq
    intro n x
    have := hso.kernels q hq n fun i d => x i d / s d
    convert this using 3 with i
    funext j
    have e : fk'.kdims q = fk.kdims q := by
      unfold FK.kdims
      rw [c3, Kern.stretched_activeDims]
    rw [e, c3, distOn_stretch c1 c2 (x := fun d => x i d / s d) (z := fun d => x j d / s d) (fun d _ => (div_mul_cancel₀ _ (hs d).ne').symm) fun d _ => (div_mul_cancel₀ _ (hs d).ne').symm]
    exact Kern.stretched_doc c1 _ _
  · obtain ⟨q, hq, rfl⟩ := mem_getD hk (.identity none)
    rw [h.count] at hq
    obtain ⟨c, -, -, c3⟩ := h.kernel q hq
    rw [c3]
    exact Kern.stretched_noIdentity c (hso.plain _ (getD_mem_of_lt hq _))
  · rw [hQ] at hq
    rw [hD] at hd
    rw [h.same]
    exact hso.kappa q hq d hd
  · rw [hD] at hd
    rw [h.same]
    exact hso.noise d hd

/-! ### models -/

theorem stretched_padded {P : ℕ} {s : ℕ → ℝ} {Xs : List (NDArr ℝ)} (h : ∀ X ∈ Xs, ∃ n, PointsShape X n P) :
    padded P (Xs.map (NDArr.stretched s)) = (padded P Xs).map (Arr2.stretched s) := by
  unfold padded
  rw [List.map_map, List.map_map]
  refine List.map_congr_left fun X hX => ?_
  obtain ⟨n, hn⟩ := h X hX
  obtain ⟨sh, dt⟩ := X
  rcases hn with ⟨hn, rfl⟩ | hn
  · obtain rfl : sh = [n] := hn
    show (⟨n, 1, vmk n fun i => dt.getD i 0 * s 0⟩ : Arr2 ℝ) = Arr2.of n 1 fun i c => (⟨n, 1, dt⟩ : Arr2 ℝ).get i c * s c
    unfold Arr2.of
    congr 1
    rw [mul_one]
    refine vmk_congr fun i hi => ?_
    simp [Arr2.get, Nat.mod_one]
  · obtain rfl : sh = [n, P] := hn
    rfl

theorem stretched_lens (s : ℕ → ℝ) (Xs : List (NDArr ℝ)) : queryLens (Xs.map (NDArr.stretched s)) = queryLens Xs := by
  unfold queryLens
  rw [List.map_map]
  refine List.map_congr_left fun X _ => ?_
  obtain ⟨sh, dt⟩ := X
  match sh with
  | [] => rfl
  | [n] => rfl
  | [n, p] => rfl
  | n :: p :: q :: l => rfl

theorem stretched_point {P : ℕ} {s : ℕ → ℝ} {Xs : List (NDArr ℝ)} (h : ∀ X ∈ Xs, ∃ n, PointsShape X n P) {d i : ℕ} (hd : d < Xs.length) (hi : i < (queryLens Xs).getD d 0) :
    Corr P (fun c x => x * s c) (queryPoint P Xs d i) (queryPoint P (Xs.map (NDArr.stretched s)) d i) := by
  intro c hc
  rw [← pointOf_padded hd, ← pointOf_padded (by rw [List.length_map]; exact hd), stretched_padded h]
  unfold pointOf
  have hp : d < (padded P Xs).length := by unfold padded; rw [List.length_map]; exact hd
  rw [map_getD_lt hp _ _ ⟨0, 0, []⟩]
  have e : (padded P Xs).getD d ⟨0, 0, []⟩ = ⟨(queryLens Xs).getD d 0, P, (Xs.getD d ⟨[], []⟩).data⟩ := by
    unfold padded queryLens
    rw [map_getD_lt hd _ _ ⟨[], []⟩, map_getD_lt hd _ _ ⟨[], []⟩]
  rw [e]
  exact stretched_get s hi hc

theorem stretched_spoiled {s : ℕ → ℝ} {fk fk' : FK} (h : fk.Stretched s fk') (g : List ℕ × List ℕ) : fk'.extraOf g = fk.extraOf g := by
  have hQ : fk'.Q = fk.Q := h.count
  have : Spoiled fk' g ↔ Spoiled fk g := by
    have e : chooseKType fk' g.1 = chooseKType fk g.1 := by
      unfold chooseKType
      rw [hQ, h.same]
      rfl
    unfold Spoiled
    rw [e, h.same]
    rfl
  unfold FK.extraOf
  by_cases hS : Spoiled fk g
  · rw [if_pos hS, if_pos (this.2 hS)]
  · rw [if_neg hS, if_neg fun h => hS (this.1 h)]

theorem stretched_isomorphic {s : ℕ → ℝ} (hs : ∀ c, 0 < s c) {P : ℕ} {a a' : LLGPArgs} (hst : a.Stretched s a') {m m' : LLGP} (hok : m.OK P) (hok' : m'.OK P)
    (hmode : m'.prediction = m.prediction) (hfk : m.fk.Stretched s m'.fk) (ha : m.MadeFrom P a) (ha' : m'.MadeFrom P a') : Isomorphic P id (Corr P fun c x => x * s c) id (fun _ => id) m m' ∧
      m'.gp.Xs.map Arr2.rows = m.gp.Xs.map Arr2.rows ∧ ∀ r < (m.gp.Xs.map Arr2.rows).sum, ∀ q < (m.gp.Xs.map Arr2.rows).sum, m'.fk.fullCov m'.gp.Xs r q = m.fk.fullCov m.gp.Xs r q := by
  obtain ⟨x1, n1, y1⟩ := MadeFrom.scale ha
  obtain ⟨x2, n2, y2⟩ := MadeFrom.scale ha'
  obtain ⟨fk0, m0, hd, hi, g1, g2, g3⟩ := ha
  obtain ⟨fk0', m0', hd', hi', g1', g2', g3'⟩ := ha'
  obtain ⟨-, -, -, -, f3⟩ := documented_fields hd hi
  obtain ⟨-, -, -, -, f3'⟩ := documented_fields hd' hi'
  have hD : m'.fk.D = m.fk.D := by rw [hfk.same]
  have hQ : m'.fk.Q = m.fk.Q := hfk.count
  have had : m'.fk.activeDims = m.fk.activeDims := by rw [hfk.same]
  have hpts : ∀ X ∈ a.Xs, ∃ n, PointsShape X n P := fun X hX => by
    obtain ⟨d, hd', rfl⟩ := mem_getD hX ⟨[], []⟩
    obtain ⟨n, -, hn⟩ := hd.data.shape d hd'
    exact ⟨n, hn⟩
  have hlen : a'.Xs.length = a.Xs.length := by rw [hst.Xs, List.length_map]
  have hY : a'.Ys = a.Ys := by rw [hst.same]
  have hno : a'.normalize = a.normalize := by rw [hst.same]
  have hmm : a'.m = a.m := by rw [hst.same]
  have hsc : ∀ d, a'.scaleOf d = a.scaleOf d ∧ a'.centreOf d = a.centreOf d := fun d => by
    unfold LLGPArgs.scaleOf LLGPArgs.centreOf
    rw [hno, hY]
    exact ⟨rfl, rfl⟩
  have hDX : m.fk.D = a.Xs.length := by
    rw [← hok.data.inputs.len, x1]
    unfold padded
    rw [List.length_map]
  have hax : ∀ g ∈ m.fk.activeDims, m'.axesOf g.1 = stretchAxes (movedAt s g.1) (m.axesOf g.1) ∧ (m.axesOf g.1).length = g.1.length := fun g hg => by
    have k1 : g.1 ∈ m0.fk.activeDims.map Prod.fst := by rw [← g3]; exact List.mem_map_of_mem hg
    have k2 : g.1 ∈ m0'.fk.activeDims.map Prod.fst := by rw [← g3', had]; exact List.mem_map_of_mem hg
    obtain ⟨G, q1, q2⟩ := generateGrids_get f3 _ k1
    obtain ⟨G', q1', q2'⟩ := generateGrids_get f3' _ k2
    rw [← g1', x2, hst.Xs, stretched_padded hpts, hmm] at q1'
    rw [← g1, x1] at q1
    have e1 : m.axesOf g.1 = G.axes := by unfold LLGP.axesOf; rw [g2, q2]; rfl
    have e2 : m'.axesOf g.1 = G'.axes := by unfold LLGP.axesOf; rw [g2', q2']; rfl
    refine ⟨by rw [e1, e2, generateGrid_stretched hs hst.lo hst.hi q1 q1'], ?_⟩
    rw [e1]
    rw [← g2] at q2
    exact (hok.grid _ ((mem_iff_dictGet (by rw [hok.keys]; exact hok.groups.nodup) _ _).2 q2)).axes
  have hkd : ∀ q < m.fk.Q, m'.fk.kdims q = m.fk.kdims q := fun q hq => by
    obtain ⟨c, -, -, e⟩ := hfk.kernel q hq
    unfold FK.kdims
    rw [e, Kern.stretched_activeDims]
  have hbound : ∀ q < m.fk.Q, ∀ c ∈ m.fk.kdims q, c < P := fun q hq c hc => by
    obtain ⟨ad, e1, e2⟩ := hok.ready.dims _ (getD_mem_of_lt (l := m.fk.kernels) hq (.identity none))
    unfold FK.kdims at hc
    rw [e1] at hc
    exact hok.ready.bound ad e2 c hc
  have hl : m'.gp.Xs.map Arr2.rows = m.gp.Xs.map Arr2.rows := by rw [x1, x2, padded_lens, padded_lens, hst.Xs, stretched_lens]
  have hYs : m'.gp.Ys = m.gp.Ys := by
    rw [y1, y2, hY]
    simp only [fun d => (hsc d).1, fun d => (hsc d).2]
  have hsum : (m.gp.Xs.map Arr2.rows).sum = (m'.gp.Xs.map Arr2.rows).sum := by rw [hl]
  have hrows : ∀ r : Fin (m.gp.Xs.map Arr2.rows).sum, ownerOf (m'.gp.Xs.map Arr2.rows) (finCongr hsum r) = id (ownerOf (m.gp.Xs.map Arr2.rows) r) ∧
      Corr P (fun c x => x * s c) (rowPoint m.gp.Xs r) (rowPoint m'.gp.Xs (finCongr hsum r)) ∧ m.gp.Ys.flatten.getD r 0 = m'.gp.Ys.flatten.getD (finCongr hsum r) 0 := by
    refine fun r => ⟨?_, ?_, ?_⟩
    · show ownerOf _ (r : ℕ) = _
      rw [hl]
      rfl
    · show Corr P _ _ (rowPoint m'.gp.Xs (r : ℕ))
      obtain ⟨r, hr⟩ := r
      show Corr P _ (rowPoint m.gp.Xs r) (rowPoint m'.gp.Xs r)
      have ho := ownerOf_lt _ _ hr
      obtain ⟨-, o2⟩ := offset_owner hr
      rw [List.length_map, hok.data.inputs.len, hDX] at ho
      unfold rowPoint
      rw [hl]
      generalize ownerOf (m.gp.Xs.map Arr2.rows) r = d at ho o2 ⊢
      generalize innerIdx (m.gp.Xs.map Arr2.rows) r = i at o2 ⊢
      rw [x1, padded_lens] at o2
      rw [x1, x2, pointOf_padded ho, pointOf_padded (by rw [hlen]; exact ho), hst.Xs]
      exact stretched_point hpts ho o2
    · show _ = m'.gp.Ys.flatten.getD (r : ℕ) 0
      rw [hYs]
  have R : Isomorphic P id (Corr P fun c x => x * s c) id (fun _ => id) m m' := by
    refine ⟨hok, hok', hmode, hD, hQ, by rw [had]; simp, fun _ _ => Iff.rfl, fun _ _ h => h, fun a ha => ha, fun a _ b _ h => h, fun q _ a _ b _ => ?_, fun a _ => by rw [hfk.same]; rfl, fun g _ => stretched_spoiled hfk g, fun g hg => ?_,
      fun g hg => Set.bijOn_id _, fun g hg x x' hx p _ => ?_, fun g hg k hk p _ q _ => ?_, fun q hq x x' z z' hx hz => ?_, fun d hd => ?_, finCongr hsum, hrows⟩
    · rw [hfk.same]
      rfl
    · rw [id, (hax g hg).1]
      unfold gridSize
      rw [lengths_stretch]
    · rw [id, (hax g hg).1]
      refine gridWeight_stretch (fun c => hs _) _ (fun k hk => ?_) p
      rw [(hax g hg).2] at hk
      exact hx _ (hok.ready.bound g.1 (List.mem_map_of_mem hg) _ (getD_mem_of_lt hk 0))
    · obtain ⟨-, -, hQk⟩ := hok.groups.group g hg
      obtain ⟨c, c1, c2, c3⟩ := hfk.kernel k (hQk k hk)
      have hdim : m.fk.kdims k = g.1 := by
        unfold FK.kdims
        rw [(hok.groups.members g hg k (hQk k hk)).1 hk]
        rfl
      rw [id, (hax g hg).1, id, id, gridDistance_stretch (s := movedAt s g.1) c1 (fun j hj => c2 _ (by rw [hdim]; exact getD_mem_of_lt (by rw [← (hax g hg).2]; exact hj) 0)), c3, Kern.stretched_doc c1]
    · obtain ⟨c, c1, c2, c3⟩ := hfk.kernel q hq
      rw [hkd q hq, distOn_stretch c1 c2 (fun d hd => hx d (hbound q hq d hd)) (fun d hd => hz d (hbound q hq d hd)), c3, Kern.stretched_doc c1]
    · rw [hDX] at hd
      show normOf m'.gp d = _
      rw [(n1 d hd).1, (n2 d (by rw [hlen]; exact hd)).1, (hsc d).1, (hsc d).2]
  refine ⟨R, hl, fun r hr q hq => ?_⟩
  exact (R.covMat hrows ⟨r, hr⟩ ⟨q, hq⟩).symm

end Verif
