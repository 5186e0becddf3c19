import Verif.Spec.Symmetry
import Verif.Proofs.LLGPSim
import Verif.Props.Grid2
import Verif.Proofs.SkiGrids

/-! Lemmas for C74: a model of the same observations with another origin for the inputs. -/

namespace Verif

/-- the move of the columns `ad` -/
def movedAt (t : ℕ → ℝ) (ad : List ℕ) : ℕ → ℝ := fun k => t (ad.getD k 0)

theorem moved_wf (t : ℕ → ℝ) (X : Arr2 ℝ) : (X.moved t).WF := Arr2.of_wf _ _ _

theorem moved_get (t : ℕ → ℝ) {X : Arr2 ℝ} {i c : ℕ} (hi : i < X.rows) (hc : c < X.cols) : (X.moved t).get i c = X.get i c + t c := Arr2.of_get hi hc

theorem takeCols_moved (t : ℕ → ℝ) (X : Arr2 ℝ) (ad : List ℕ) : takeCols (X.moved t) ad = (takeCols X ad).map (Arr2.moved (movedAt t ad)) := by
  unfold takeCols
  by_cases h : ∀ c ∈ ad, c < X.cols
  · rw [if_pos h, if_pos (show ∀ c ∈ ad, c < (X.moved t).cols from h)]
    show Except.ok _ = Except.ok _
    congr 1
    refine Arr2.of_congr fun i hi k hk => ?_
    have hk' : k < ad.length := hk
    have hc : ad.getD k 0 < X.cols := h _ (by rw [List.getD_eq_getElem _ _ hk']; exact List.getElem_mem hk')
    rw [moved_get (X := X) t hi hc, Arr2.of_get (show i < X.rows from hi) hk]
    rfl
  · rw [if_neg h, if_neg (show ¬ ∀ c ∈ ad, c < (X.moved t).cols from h)]
    rfl

theorem takeCols_facts {X Y : Arr2 ℝ} {ad : List ℕ} (h : takeCols X ad = .ok Y) : Y.WF ∧ Y.cols = ad.length ∧ Y.rows = X.rows := by
  unfold takeCols at h
  split_ifs at h
  cases h
  exact ⟨Arr2.of_wf _ _ _, rfl, rfl⟩

theorem mapExcept_moved {α β : Type} {f g : α → Except PyErr β} {φ : β → β} : ∀ {l : List α}, (∀ x ∈ l, g x = (f x).map φ) →
    mapExcept g l = (mapExcept f l).map (List.map φ)
  | [], _ => rfl
  | x :: l, h => by
    rw [mapExcept, mapExcept, h x (by simp), mapExcept_moved fun y hy => h y (by simp [hy])]
    cases f x with
    | error e => rfl
    | ok y => cases mapExcept f l <;> rfl

theorem takeColsAll_moved (t : ℕ → ℝ) (Xs : List (Arr2 ℝ)) (ad : List ℕ) :
    mapExcept (fun X => takeCols X ad) (Xs.map (Arr2.moved t)) = (mapExcept (fun X => takeCols X ad) Xs).map (List.map (Arr2.moved (movedAt t ad))) := by
  rw [mapExcept_map]
  exact mapExcept_moved fun X _ => takeCols_moved t X ad

/-! ### distances -/

theorem row_moved (t : ℕ → ℝ) {X : Arr2 ℝ} {i : ℕ} (hi : i < X.rows) : (X.moved t).row i = vmk X.cols fun c => X.get i c + t c :=
  vmk_congr fun _ hc => moved_get t hi hc

theorem vsub_vmk_add (n : ℕ) (f g t : ℕ → ℝ) : vsub (vmk n fun c => f c + t c) (vmk n fun c => g c + t c) = vsub (vmk n f) (vmk n g) := by
  refine List.ext_getElem (by simp [vsub]) fun i h1 h2 => ?_
  simp [vsub]

theorem cdist_moved (t : ℕ → ℝ) (X Z : Arr2 ℝ) : cdist (X.moved t) (Z.moved t) = cdist X Z := by
  unfold cdist
  by_cases h : X.cols = Z.cols
  · rw [if_pos h, if_pos (show (X.moved t).cols = (Z.moved t).cols from h)]
    congr 1
    refine Arr2.of_congr fun i hi j hj => ?_
    rw [row_moved (X := X) t hi, row_moved (X := Z) t hj, ← h, vsub_vmk_add]
    unfold Arr2.row
    rw [h]
  · rw [if_neg h, if_neg (show ¬ (X.moved t).cols = (Z.moved t).cols from h)]

theorem genDists_moved (t : ℕ → ℝ) (keys : List (List ℕ)) (X Z : Arr2 ℝ) : genDists keys (X.moved t) (Z.moved t) = genDists keys X Z := by
  unfold genDists
  refine mapExcept_congr' fun ad _ => ?_
  rw [takeCols_moved, takeCols_moved]
  cases takeCols X ad with
  | error e => rfl
  | ok x =>
    cases takeCols Z ad with
    | error e => rfl
    | ok z =>
      show (cdist (x.moved _) (z.moved _) >>= _) = _
      rw [cdist_moved]
      rfl

theorem moved_data (t : ℕ → ℝ) (X : Arr2 ℝ) : (X.moved t).data = vmk (X.rows * X.cols) fun k => X.data.getD k 0 + t (k % X.cols) := by
  show vmk _ _ = _
  refine vmk_congr fun k hk => ?_
  show X.data.getD (k / X.cols * X.cols + k % X.cols) 0 + _ = _
  rw [(idx_split hk).2.2]

theorem flatMap_moved (t : ℕ → ℝ) (c : ℕ) : ∀ Xs : List (Arr2 ℝ), (∀ X ∈ Xs, X.WF ∧ X.cols = c) →
    (Xs.map (Arr2.moved t)).flatMap Arr2.data = vmk ((Xs.map Arr2.rows).sum * c) (fun k => (Xs.flatMap Arr2.data).getD k 0 + t (k % c)) ∧
      (Xs.flatMap Arr2.data).length = (Xs.map Arr2.rows).sum * c
  | [], _ => ⟨by simp [vmk], by simp⟩
  | X :: Xs, h => by
    obtain ⟨hX, hc⟩ := h X (by simp)
    have hl : X.data.length = X.rows * c := by rw [← hc]; exact hX
    obtain ⟨ih, ihl⟩ := flatMap_moved t c Xs fun Y hY => h Y (by simp [hY])
    refine ⟨?_, by simp only [List.flatMap_cons, List.length_append, hl, ihl, List.map_cons, List.sum_cons]; ring⟩
    rw [List.map_cons, List.flatMap_cons, ih, moved_data, hc]
    refine list_ext_getD 0 (by simp; ring) fun k hk => ?_
    rw [vmk_getD_lt (by simpa [add_mul] using hk), List.flatMap_cons]
    by_cases hk1 : k < X.rows * c
    · rw [getD_append_left' (by simpa using hk1), getD_append_left' (by rw [hl]; exact hk1), vmk_getD_lt hk1]
    · rw [not_lt] at hk1
      rw [getD_append_right' (by simpa using hk1), getD_append_right' (by rw [hl]; exact hk1), hl, vmk_length,
        vmk_getD_lt (by rw [List.length_append, vmk_length, vmk_length] at hk; omega)]
      congr 2
      conv_rhs => rw [← Nat.sub_add_cancel hk1, Nat.add_mul_mod_self_right]

theorem vstackX_moved (t : ℕ → ℝ) {Xs : List (Arr2 ℝ)} (h : ∀ X ∈ Xs, X.WF) : vstackX (Xs.map (Arr2.moved t)) = (vstackX Xs).map (Arr2.moved t) := by
  cases Xs with
  | nil => rfl
  | cons X rest =>
    rw [List.map_cons, vstackX, vstackX]
    by_cases hc : ∀ Y ∈ rest, Y.cols = X.cols
    · rw [if_pos hc, if_pos (by
        intro Y hY
        obtain ⟨Z, hZ, rfl⟩ := List.mem_map.1 hY
        exact hc Z hZ)]
      show Except.ok _ = Except.ok _
      congr 1
      obtain ⟨h1, h2⟩ := flatMap_moved t X.cols (X :: rest) fun Y hY => ⟨h Y hY, by
        rcases List.mem_cons.1 hY with rfl | hY
        exacts [rfl, hc Y hY]⟩
      have e : ∀ A B : Arr2 ℝ, A.rows = B.rows → A.cols = B.cols → A.data = B.data → A = B := by rintro ⟨⟩ ⟨⟩ rfl rfl rfl; rfl
      refine e _ _ ?_ rfl ?_
      · show ((List.map (Arr2.moved t) (X :: rest)).map Arr2.rows).sum = ((X :: rest).map Arr2.rows).sum
        rw [List.map_map]
        rfl
      · rw [moved_data]
        exact h1
    · rw [if_neg hc, if_neg (by
        intro h'
        exact hc fun Y hY => h' (Y.moved t) (List.mem_map_of_mem hY))]
      rfl

theorem rows_moved (t : ℕ → ℝ) (Xs : List (Arr2 ℝ)) : (Xs.map (Arr2.moved t)).map Arr2.rows = Xs.map Arr2.rows := by rw [List.map_map]; rfl

theorem cols_moved (t : ℕ → ℝ) (Xs : List (Arr2 ℝ)) : (Xs.map (Arr2.moved t)).map Arr2.cols = Xs.map Arr2.cols := by rw [List.map_map]; rfl

theorem kernelFromIndices_moved (t : ℕ → ℝ) {Xs Zs : List (Arr2 ℝ)} (hX : ∀ X ∈ Xs, X.WF) (hZ : ∀ Z ∈ Zs, Z.WF) (fk : FK) :
    kernelFromIndices (Xs.map (Arr2.moved t)) (Zs.map (Arr2.moved t)) fk = kernelFromIndices Xs Zs fk := by
  unfold kernelFromIndices
  rw [vstackX_moved t hX, vstackX_moved t hZ, rows_moved, rows_moved]
  cases vstackX Xs with
  | error e => rfl
  | ok x =>
    cases vstackX Zs with
    | error e => rfl
    | ok z =>
      show (genDists _ (x.moved t) (z.moved t) >>= _) = _
      rw [genDists_moved]
      rfl

theorem exactLMCNew_moved (t : ℕ → ℝ) {Xs : List (Arr2 ℝ)} (hX : ∀ X ∈ Xs, X.WF) (Ys : List (List ℝ)) (fk : FK) :
    exactLMCNew fk (Xs.map (Arr2.moved t)) Ys = exactLMCNew fk Xs Ys := by
  unfold exactLMCNew
  rw [vstackX_moved t hX]
  cases vstackX Xs with
  | error e => rfl
  | ok x =>
    congr 1
    show (genDists _ (x.moved t) (x.moved t) >>= _) = _
    rw [genDists_moved]
    rfl

/-! ### grids -/

/-- a vector moved by `t` -/
noncomputable def shiftV (t : ℕ → ℝ) (v : List ℝ) : List ℝ := v.mapIdx fun j x => x + t j

theorem shiftV_length (t : ℕ → ℝ) (v : List ℝ) : (shiftV t v).length = v.length := List.length_mapIdx

theorem shiftV_vmk (t : ℕ → ℝ) (n : ℕ) (f : ℕ → ℝ) : shiftV t (vmk n f) = vmk n fun j => f j + t j := by
  refine List.ext_getElem (by simp [shiftV]) fun i h1 h2 => ?_
  simp [shiftV]

theorem shiftV_cons (t : ℕ → ℝ) (x : ℝ) (v : List ℝ) : shiftV t (x :: v) = (x + t 0) :: shiftV (fun j => t (j + 1)) v := by
  unfold shiftV
  rw [List.mapIdx_cons]

theorem zip2_shift {f : ℝ → ℝ → ℝ} (hf : ∀ x y s, f (x + s) (y + s) = f x y + s) : ∀ (t : ℕ → ℝ) (a b : List ℝ), zip2 f (shiftV t a) (shiftV t b) = shiftV t (zip2 f a b)
  | t, [], b => rfl
  | t, x :: a, [] => by simp [shiftV, zip2]
  | t, x :: a, y :: b => by
    rw [shiftV_cons, shiftV_cons]
    show f _ _ :: zip2 f _ _ = _
    rw [hf, zip2_shift hf _ a b]
    exact (shiftV_cons _ _ _).symm

theorem zip2_sub_shift : ∀ (t : ℕ → ℝ) (a b : List ℝ), zip2 (· - ·) (shiftV t a) (shiftV t b) = zip2 (· - ·) a b
  | t, [], b => rfl
  | t, x :: a, [] => by simp [shiftV, zip2]
  | t, x :: a, y :: b => by
    rw [shiftV_cons, shiftV_cons]
    show (x + t 0 - (y + t 0)) :: zip2 _ _ _ = _
    rw [zip2_sub_shift _ a b, add_sub_add_right_eq_sub]
    rfl

theorem zip2_left_shift {f : ℝ → ℝ → ℝ} (hf : ∀ x y s, f (x + s) y = f x y + s) : ∀ (t : ℕ → ℝ) (a b : List ℝ), zip2 f (shiftV t a) b = shiftV t (zip2 f a b)
  | t, [], b => rfl
  | t, x :: a, [] => by simp [shiftV, zip2]
  | t, x :: a, y :: b => by
    rw [shiftV_cons]
    show f _ _ :: zip2 f _ _ = _
    rw [hf, zip2_left_shift hf _ a b]
    exact (shiftV_cons _ _ _).symm

theorem foldl_shift {f : ℝ → ℝ → ℝ} (hf : ∀ x y s, f (x + s) (y + s) = f x y + s) (s : ℝ) : ∀ (l : List ℝ) (a : ℝ), (l.map (· + s)).foldl f (a + s) = l.foldl f a + s
  | [], a => rfl
  | x :: l, a => by rw [List.map_cons, List.foldl_cons, List.foldl_cons, hf, foldl_shift hf s l]

theorem foldl_zip2_shift {f : ℝ → ℝ → ℝ} (hf : ∀ x y s, f (x + s) (y + s) = f x y + s) (t : ℕ → ℝ) :
    ∀ (l : List (List ℝ)) (a : List ℝ), (l.map (shiftV t)).foldl (zip2 f) (shiftV t a) = shiftV t (l.foldl (zip2 f) a)
  | [], a => rfl
  | x :: l, a => by rw [List.map_cons, List.foldl_cons, List.foldl_cons, zip2_shift hf, foldl_zip2_shift hf t l]

theorem axisReduce_moved {f : ℝ → ℝ → ℝ} (hf : ∀ x y s, f (x + s) (y + s) = f x y + s) (t : ℕ → ℝ) (X : Arr2 ℝ) : axisReduce f (X.moved t) = (axisReduce f X).map (shiftV t) := by
  unfold axisReduce
  by_cases h : X.rows = 0
  · rw [if_pos h, if_pos (show (X.moved t).rows = 0 from h)]
    rfl
  · rw [if_neg h, if_neg (show ¬ (X.moved t).rows = 0 from h)]
    show Except.ok _ = Except.ok _
    rw [shiftV_vmk]
    congr 1
    refine vmk_congr fun j hj => ?_
    have hj' : j < X.cols := hj
    rw [moved_get t (by omega) hj', ← foldl_shift hf]
    congr 1
    unfold Arr2.col vmk
    rw [← List.map_tail, ← List.map_tail, List.map_map]
    refine List.map_congr_left fun i hi => ?_
    exact moved_get t (List.mem_range.1 (List.mem_of_mem_tail hi)) hj'

theorem linspace_shift (l h s : ℝ) (n : ℕ) : linspace (l + s) (h + s) n = (linspace l h n).map (· + s) := by
  unfold linspace vmk
  rw [List.map_map]
  refine List.map_congr_left fun i _ => ?_
  simp only [Function.comp, add_sub_add_right_eq_sub]
  ring

/-- axes moved by `t` -/
noncomputable def shiftAxes (t : ℕ → ℝ) (axes : List (List ℝ)) : List (List ℝ) := axes.mapIdx fun j g => g.map (· + t j)

theorem shiftAxes_cons (t : ℕ → ℝ) (g : List ℝ) (axes : List (List ℝ)) : shiftAxes t (g :: axes) = g.map (· + t 0) :: shiftAxes (fun j => t (j + 1)) axes := by
  unfold shiftAxes
  rw [List.mapIdx_cons]

theorem axes_shift : ∀ (t : ℕ → ℝ) (lo hi mv : List ℝ),
    List.zipWith (fun (lh : ℝ × ℝ) mm => linspace lh.1 lh.2 (pyInt mm)) ((shiftV t lo).zip (shiftV t hi)) mv =
      shiftAxes t (List.zipWith (fun (lh : ℝ × ℝ) mm => linspace lh.1 lh.2 (pyInt mm)) (lo.zip hi) mv)
  | t, [], hi, mv => by simp [shiftV, shiftAxes]
  | t, x :: lo, [], mv => by simp [shiftV, shiftAxes]
  | t, x :: lo, y :: hi, [] => by simp [shiftAxes]
  | t, x :: lo, y :: hi, m :: mv => by
    rw [shiftV_cons, shiftV_cons, List.zip_cons_cons, List.zipWith_cons_cons, axes_shift _ lo hi mv, List.zip_cons_cons, List.zipWith_cons_cons, shiftAxes_cons,
      linspace_shift]

/-- bounds given to `autogrid` moved by `t` -/
def GridArg.MovedBy (t : ℕ → ℝ) (a a' : GridArg) : Prop := a'.vals = a.vals.map (shiftV t)

theorem fits_moved {t : ℕ → ℝ} {a a' : GridArg} (h : a.MovedBy t a') (P : ℕ) : a'.fits P ↔ a.fits P := by
  unfold GridArg.fits
  rw [h]
  cases a.vals with
  | none => simp
  | some v => simp [shiftV_length]

theorem autogrid_moved (t : ℕ → ℝ) (Xs : List (Arr2 ℝ)) {lo lo' hi hi' : GridArg} (hlo : lo.MovedBy t lo') (hhi : hi.MovedBy t hi') (m : GridArg) :
    autogrid (Xs.map (Arr2.moved t)) lo' hi' m = (autogrid Xs lo hi m).map fun g => { g with grids := shiftAxes t g.grids } := by
  cases Xs with
  | nil => rfl
  | cons X rest =>
    have e1 : mapExcept (axisReduce min) ((X :: rest).map (Arr2.moved t)) = (mapExcept (axisReduce min) (X :: rest)).map (List.map (shiftV t)) := by
      rw [mapExcept_map]
      exact mapExcept_moved fun Y _ => axisReduce_moved (fun x y s => min_add_add_right x y s) t Y
    have e2 : mapExcept (axisReduce max) ((X :: rest).map (Arr2.moved t)) = (mapExcept (axisReduce max) (X :: rest)).map (List.map (shiftV t)) := by
      rw [mapExcept_map]
      exact mapExcept_moved fun Y _ => axisReduce_moved (fun x y s => max_add_add_right x y s) t Y
    have e3 := rows_moved t (X :: rest)
    rw [List.map_cons] at e1 e2 e3 ⊢
    unfold autogrid
    simp only [e1, e2, e3, List.length_cons, List.length_map]
    by_cases c1 : lo.fits X.cols
    swap
    · rw [if_pos c1, if_pos (show ¬ lo'.fits (X.moved t).cols from fun c => c1 ((fits_moved hlo _).1 c))]
      rfl
    rw [if_neg (not_not.2 c1), if_neg (not_not.2 (show lo'.fits (X.moved t).cols from (fits_moved hlo _).2 c1))]
    by_cases c2 : hi.fits X.cols
    swap
    · rw [if_pos c2, if_pos (show ¬ hi'.fits (X.moved t).cols from fun c => c2 ((fits_moved hhi _).1 c))]
      rfl
    rw [if_neg (not_not.2 c2), if_neg (not_not.2 (show hi'.fits (X.moved t).cols from (fits_moved hhi _).2 c2))]
    by_cases c3 : m.fits X.cols
    swap
    · rw [if_pos c3, if_pos (show ¬ m.fits (X.moved t).cols from c3)]
      rfl
    rw [if_neg (not_not.2 c3), if_neg (not_not.2 (show m.fits (X.moved t).cols from c3))]
    simp only [show (X.moved t).cols = X.cols from rfl]
    cases h1 : mapExcept (axisReduce min) (X :: rest) with
    | error e => rfl
    | ok mins =>
      cases h2 : mapExcept (axisReduce max) (X :: rest) with
      | error e => rfl
      | ok maxs =>
        simp only [Except.map, ok_bind]
        have f1 : (List.map (shiftV t) mins).tail.foldl (zip2 min) ((List.map (shiftV t) mins).headD []) = shiftV t (mins.tail.foldl (zip2 min) (mins.headD [])) := by
          cases mins with
          | nil => rfl
          | cons a l => exact foldl_zip2_shift (fun x y s => min_add_add_right x y s) t l a
        have f2 : (List.map (shiftV t) maxs).tail.foldl (zip2 max) ((List.map (shiftV t) maxs).headD []) = shiftV t (maxs.tail.foldl (zip2 max) (maxs.headD [])) := by
          cases maxs with
          | nil => rfl
          | cons a l => exact foldl_zip2_shift (fun x y s => max_add_add_right x y s) t l a
        rw [f1, f2, hlo, hhi]
        generalize mins.tail.foldl (zip2 min) (mins.headD []) = mn
        generalize maxs.tail.foldl (zip2 max) (maxs.headD []) = mx
        have z1 : ∀ a b, zip2 min (shiftV t a) (shiftV t b) = shiftV t (zip2 min a b) := zip2_shift (fun x y s => min_add_add_right x y s) t
        have z2 : ∀ a b, zip2 max (shiftV t a) (shiftV t b) = shiftV t (zip2 max a b) := zip2_shift (fun x y s => max_add_add_right x y s) t
        have z3 : ∀ a b, zip2 (fun l d => l - 2 * d) (shiftV t a) b = shiftV t (zip2 (fun l d => l - 2 * d) a b) :=
          zip2_left_shift (f := fun l d => l - 2 * d) (fun x y s => by ring) t
        have z4 : ∀ a b, zip2 (fun h d => h + 2 * d) (shiftV t a) b = shiftV t (zip2 (fun h d => h + 2 * d) a b) :=
          zip2_left_shift (f := fun h d => h + 2 * d) (fun x y s => by ring) t
        generalize lo.vals = L
        generalize hi.vals = H
        rcases L with _ | v <;> rcases H with _ | w <;> simp only [Option.map_none, Option.map_some, z1, z2, zip2_sub_shift, z3, z4, axes_shift] <;> split_ifs <;> rfl

theorem wrapOpt_moved {t : ℕ → ℝ} {x x' : GridOpt} (h : GridOpt.Moved t x x') (ad : List ℕ) : ExceptRel (GridArg.MovedBy (movedAt t ad)) (wrapOpt x ad) (wrapOpt x' ad) := by
  cases x with
  | none =>
    cases x' with
    | none => exact rfl
    | scalar v => exact h.elim
    | vec v => exact h.elim
  | scalar v =>
    cases x' with
    | none => exact h.elim
    | scalar v' =>
      unfold wrapOpt
      by_cases hl : ad.length = 1
      · simp only [hl, if_true]
        show some [v'] = some (shiftV _ [v])
        rw [h (ad.getD 0 0), shiftV_cons]
        rfl
      · simp only [hl, if_false]
        exact rfl
    | vec v => exact h.elim
  | vec v =>
    cases x' with
    | none => exact h.elim
    | scalar v' => exact h.elim
    | vec v' =>
      have h : v' = vmk v.length fun c => v.getD c 0 + t c := h
      subst h
      unfold wrapOpt
      by_cases hl : ∀ c ∈ ad, c < v.length
      · simp only [vmk_length]
        rw [if_pos hl, if_pos hl]
        show some _ = some (shiftV _ _)
        congr 1
        refine List.ext_getElem (by simp [shiftV]) fun i h1 h2 => ?_
        have hi : i < ad.length := by simpa using h1
        simp only [shiftV, List.getElem_mapIdx, List.getElem_map, movedAt]
        rw [vmk_getD_lt (hl _ (List.getElem_mem hi)), List.getD_eq_getElem _ _ hi]
      · simp only [vmk_length]
        rw [if_neg hl, if_neg hl]
        exact rfl

theorem inBox_getD : ∀ {s u : List ℕ}, inBox s u → ∀ i < s.length, u.getD i 0 < s.getD i 0
  | [], [], _, i, hi => by simp at hi
  | n :: s, k :: u, h, 0, _ => h.1
  | n :: s, k :: u, h, i + 1, hi => by
    rw [List.getD_cons_succ, List.getD_cons_succ]
    exact inBox_getD h.2 i (by simpa using hi)

theorem lengths_shift (t : ℕ → ℝ) (axes : List (List ℝ)) : (shiftAxes t axes).map List.length = axes.map List.length := by
  refine List.ext_getElem (by simp [shiftAxes]) fun i h1 h2 => ?_
  simp [shiftAxes]

theorem cartesian_shift (t : ℕ → ℝ) (axes : List (List ℝ)) : cartesianProduct (shiftAxes t axes) = (cartesianProduct axes).map (shiftV t) := by
  unfold cartesianProduct
  rw [lengths_shift, List.map_map]
  refine List.map_congr_left fun u hu => ?_
  have hb := mem_indices.1 hu
  show _ = shiftV t (vmk _ _)
  rw [shiftV_vmk]
  have hl : (shiftAxes t axes).length = axes.length := List.length_mapIdx
  rw [hl]
  refine vmk_congr fun i hi => ?_
  have h1 := inBox_getD hb i (by simpa using hi)
  have e1 : (axes.map List.length).getD i 0 = (axes.getD i []).length := by simp [hi]
  have e2 : (shiftAxes t axes).getD i [] = (axes.getD i []).map (· + t i) := by simp [shiftAxes, hi]
  rw [e1] at h1
  rw [e2, map_getD_lt h1 _ _ 0]

theorem gridDists_shift (t : ℕ → ℝ) (axes : List (List ℝ)) : gridDists (shiftAxes t axes) = gridDists axes := by
  unfold gridDists
  simp only [cartesian_shift, lengths_shift]
  cases cartesianProduct axes with
  | nil => rfl
  | cons u l =>
    simp only [List.map_cons, List.map_map]
    have e : ∀ a b, vsub (shiftV t a) (shiftV t b) = vsub a b := fun a b => zip2_sub_shift t a b
    rw [e]
    congr 3
    refine List.map_congr_left fun v _ => ?_
    rw [Function.comp, e]

theorem interpFactor_shift {g : List ℝ} (hg : 2 ≤ g.length) (s x : ℝ) : interpFactor (g.map (· + s)) (x + s) = interpFactor g x := by
  unfold interpFactor
  rw [map_getD_lt (by omega) _ _ 0, map_getD_lt (by omega) _ _ 0, add_sub_add_right_eq_sub, add_sub_add_right_eq_sub]

theorem interpLoop_shift {g : List ℝ} (hg : 2 ≤ g.length) (s : ℝ) (x : List ℝ) : ∀ (convs : List ℤ) (csr : Csr), interpLoop (g.map (· + s)) (x.map (· + s)) convs csr = interpLoop g x convs csr
  | [], csr => rfl
  | conv :: rest, csr => by
    have e : (x.map (· + s)).map (interpFactor (g.map (· + s))) = x.map (interpFactor g) := by
      rw [List.map_map]
      exact List.map_congr_left fun y _ => interpFactor_shift hg s y
    rw [interpLoop, interpLoop]
    simp only [e, List.length_map]
    exact congrArg _ (funext fun d => interpLoop_shift hg s x rest _)

theorem interpCubic_shift (g : List ℝ) (s : ℝ) (x : List ℝ) : interpCubic (.vec (g.map (· + s))) (.vec (x.map (· + s))) = interpCubic (.vec g) (.vec x) := by
  unfold interpCubic
  simp only [NDArr.vec, List.length_map, NDArr.len, NDArr.ndim]
  by_cases h : g.length < 4
  · simp only [ok_bind, h, if_true]
  · simp only [ok_bind]
    rw [interpLoop_shift (by omega)]
    rfl

theorem bicubicX_shift {g : List ℝ} (hg : 2 ≤ g.length) (s : ℝ) (my : ℕ) (x : List ℝ) (yc : List ℕ) :
    ∀ (convs : List ℤ) (csr : Csr), bicubicX (g.map (· + s)) my (x.map (· + s)) yc convs csr = bicubicX g my x yc convs csr
  | [], csr => rfl
  | conv :: rest, csr => by
    have e : (x.map (· + s)).map (interpFactor (g.map (· + s))) = x.map (interpFactor g) := by
      rw [List.map_map]
      exact List.map_congr_left fun y _ => interpFactor_shift hg s y
    rw [bicubicX, bicubicX]
    simp only [e, List.length_map]
    exact congrArg _ (funext fun d => bicubicX_shift hg s my x yc rest _)

theorem bicubicY_shift {gx gy : List ℝ} (hx : 2 ≤ gx.length) (hy : 2 ≤ gy.length) (s s' : ℝ) (x y : List ℝ) (n : ℕ) :
    ∀ (k : ℕ) (convs : List ℤ) (cs : List Csr) (csr : Csr), bicubicY (gx.map (· + s)) (gy.map (· + s')) (x.map (· + s)) (y.map (· + s')) n k convs cs csr =
      bicubicY gx gy x y n k convs cs csr
  | _, [], _, _ => rfl
  | k, conv :: rest, cs, csr => by
    have e : (y.map (· + s')).map (interpFactor (gy.map (· + s'))) = y.map (interpFactor gy) := by
      rw [List.map_map]
      exact List.map_congr_left fun y _ => interpFactor_shift hy s' y
    rw [bicubicY, bicubicY]
    simp only [e, List.length_map, bicubicX_shift hx]
    exact congrArg _ (funext fun d => congrArg _ (funext fun d' => bicubicY_shift hx hy s s' x y n (k + 1) rest _ _))

theorem interpBicubic_shift (gx gy : List ℝ) (t : ℕ → ℝ) (X : Arr2 ℝ) : interpBicubic (.vec (gx.map (· + t 0))) (.vec (gy.map (· + t 1))) (X.moved t).nd =
    interpBicubic (.vec gx) (.vec gy) X.nd := by
  unfold interpBicubic
  simp only [NDArr.vec, List.length_map, NDArr.ndim, Arr2.nd, show (X.moved t).rows = X.rows from rfl, show (X.moved t).cols = X.cols from rfl]
  by_cases h1 : gx.length < 4
  · simp only [h1, if_true]
  by_cases h2 : gy.length < 4
  · simp only [h1, h2, if_true, if_false]
  by_cases h3 : [X.cols] ≠ [2]
  · simp only [h1, h2, if_false]
    rw [if_pos h3, if_pos h3]
  have hc : X.cols = 2 := by simpa using h3
  have e1 : (vmk X.rows fun i => (X.moved t).data.getD (i * 2) 0) = (vmk X.rows fun i => X.data.getD (i * 2) 0).map (· + t 0) := by
    unfold vmk
    rw [List.map_map]
    refine List.map_congr_left fun i hi => ?_
    have hi := List.mem_range.1 hi
    rw [moved_data, vmk_getD_lt (by rw [hc]; omega), hc]
    simp
  have e2 : (vmk X.rows fun i => (X.moved t).data.getD (i * 2 + 1) 0) = (vmk X.rows fun i => X.data.getD (i * 2 + 1) 0).map (· + t 1) := by
    unfold vmk
    rw [List.map_map]
    refine List.map_congr_left fun i hi => ?_
    have hi := List.mem_range.1 hi
    rw [moved_data, vmk_getD_lt (by rw [hc]; omega), hc]
    show _ + t ((i * 2 + 1) % 2) = _
    rw [show (i * 2 + 1) % 2 = 1 by omega]
    rfl
  rw [e1, e2, bicubicY_shift (by omega) (by omega)]
  rfl

theorem multiInterpolant_shift (t : ℕ → ℝ) {c : ℕ} {Xs : List (Arr2 ℝ)} (hX : ∀ X ∈ Xs, X.WF ∧ X.cols = c) (axes : List (List ℝ)) :
    multiInterpolant ((Xs.map (Arr2.moved t)).map Arr2.nd) ((shiftAxes t axes).map NDArr.vec) = multiInterpolant (Xs.map Arr2.nd) (axes.map NDArr.vec) := by
  unfold multiInterpolant
  have e1 : mapExcept (fun g : NDArr ℝ => g.len) ((shiftAxes t axes).map NDArr.vec) = mapExcept (fun g : NDArr ℝ => g.len) (axes.map NDArr.vec) := by
    rw [mapExcept_map, mapExcept_map]
    show mapExcept (fun g : List ℝ => (Except.ok g.length : Except PyErr ℕ)) _ = mapExcept (fun g : List ℝ => (Except.ok g.length : Except PyErr ℕ)) _
    rw [← mapExcept_map (fun n : ℕ => (Except.ok n : Except PyErr ℕ)) List.length, ← mapExcept_map (fun n : ℕ => (Except.ok n : Except PyErr ℕ)) List.length,
      lengths_shift]
  have e2 : mapExcept (fun X : NDArr ℝ => X.len) ((Xs.map (Arr2.moved t)).map Arr2.nd) = mapExcept (fun X : NDArr ℝ => X.len) (Xs.map Arr2.nd) := by
    rw [mapExcept_map, mapExcept_map, mapExcept_map]
    rfl
  rw [e1, e2]
  cases Xs with
  | nil => rfl
  | cons X rest =>
    simp only [List.map_cons]
    have hoc : isOneDim (X.moved t).nd = isOneDim X.nd := rfl
    rw [hoc]
    have ho : isOneDim X.nd = .ok (decide (X.cols = 1)) := rfl
    rw [ho]
    simp only [ok_bind]
    by_cases h1 : X.cols = 1
    · simp only [h1, decide_true, if_true]
      have hc : c = 1 := by rw [← (hX X (by simp)).2, h1]
      cases axes with
      | nil => rfl
      | cons g axes =>
        rw [shiftAxes_cons]
        simp only [List.map_cons]
        have e3 : mapExcept (fun Z : NDArr ℝ => interpCubic (.vec (g.map (· + t 0))) (.vec Z.data)) ((X.moved t).nd :: (rest.map (Arr2.moved t)).map Arr2.nd) =
            mapExcept (fun Z : NDArr ℝ => interpCubic (.vec g) (.vec Z.data)) (X.nd :: rest.map Arr2.nd) := by
          rw [show (X.moved t).nd :: (rest.map (Arr2.moved t)).map Arr2.nd = ((X :: rest).map (Arr2.moved t)).map Arr2.nd from rfl,
            show X.nd :: rest.map Arr2.nd = (X :: rest).map Arr2.nd from rfl, mapExcept_map, mapExcept_map, mapExcept_map]
          refine mapExcept_congr' fun Z hZ => ?_
          have e : (Z.moved t).data = Z.data.map (· + t 0) := by
            obtain ⟨hw, hz⟩ := hX Z hZ
            rw [moved_data, hz, hc]
            refine list_ext_getD 0 ?_ fun k hk => ?_
            · rw [vmk_length, List.length_map, hw, hz, hc]
            · rw [vmk_length] at hk
              rw [vmk_getD_lt hk, map_getD_lt (by rw [hw, hz, hc]; exact hk) _ _ 0, Nat.mod_one]
          show interpCubic _ (.vec (Z.moved t).data) = _
          rw [e, interpCubic_shift]
          rfl
        rw [e3]
    · simp only [h1, decide_false, Bool.false_eq_true, if_false]
      cases axes with
      | nil => rfl
      | cons g axes =>
        rw [shiftAxes_cons]
        cases axes with
        | nil => rfl
        | cons g' axes =>
          rw [shiftAxes_cons]
          simp only [List.map_cons]
          have e3 : mapExcept (fun Z : NDArr ℝ => interpBicubic (.vec (g.map (· + t 0))) (.vec (g'.map (· + t (0 + 1)))) Z) ((X.moved t).nd :: (rest.map (Arr2.moved t)).map Arr2.nd) =
              mapExcept (fun Z : NDArr ℝ => interpBicubic (.vec g) (.vec g') Z) (X.nd :: rest.map Arr2.nd) := by
            rw [show (X.moved t).nd :: (rest.map (Arr2.moved t)).map Arr2.nd = ((X :: rest).map (Arr2.moved t)).map Arr2.nd from rfl,
              show X.nd :: rest.map Arr2.nd = (X :: rest).map Arr2.nd from rfl, mapExcept_map, mapExcept_map, mapExcept_map]
            refine mapExcept_congr' fun Z hZ => ?_
            exact interpBicubic_shift g g' t Z
          rw [e3]

/-! ### the model -/

/-- how the grids of a group differ -/
def GroupRel (t : ℕ → ℝ) (g g' : List ℕ × GroupGrid) : Prop := g' = (g.1, { g.2 with axes := shiftAxes (movedAt t g.1) g.2.axes })

theorem generateGrid_moved (t : ℕ → ℝ) (Xs : List (Arr2 ℝ)) {lo lo' hi hi' : GridOpt} (hlo : lo.Moved t lo') (hhi : hi.Moved t hi') (m : GridOpt) (ad : List ℕ) :
    generateGrid (Xs.map (Arr2.moved t)) lo' hi' m ad = (generateGrid Xs lo hi m ad).map fun g => { g with axes := shiftAxes (movedAt t ad) g.axes } := by
  unfold generateGrid
  have h1 := wrapOpt_moved hlo ad
  have h2 := wrapOpt_moved hhi ad
  cases e1 : wrapOpt lo ad with
  | error e =>
    cases e1' : wrapOpt lo' ad with
    | error e' => rw [e1, e1'] at h1; cases h1; rfl
    | ok w => rw [e1, e1'] at h1; exact h1.elim
  | ok wlo =>
    cases e1' : wrapOpt lo' ad with
    | error e' => rw [e1, e1'] at h1; exact h1.elim
    | ok wlo' =>
      rw [e1, e1'] at h1
      cases e2 : wrapOpt hi ad with
      | error e =>
        cases e2' : wrapOpt hi' ad with
        | error e' => rw [e2, e2'] at h2; cases h2; rfl
        | ok w => rw [e2, e2'] at h2; exact h2.elim
      | ok whi =>
        cases e2' : wrapOpt hi' ad with
        | error e' => rw [e2, e2'] at h2; exact h2.elim
        | ok whi' =>
          rw [e2, e2'] at h2
          simp only [ok_bind]
          cases e3 : wrapOpt m ad with
          | error e => rfl
          | ok wm =>
            simp only [ok_bind]
            rw [takeColsAll_moved]
            cases e4 : mapExcept (fun X => takeCols X ad) Xs with
            | error e => rfl
            | ok Xa =>
              show (autogrid (Xa.map _) _ _ _ >>= _) = _
              rw [autogrid_moved (movedAt t ad) Xa h1 h2]
              simp only [ok_bind]
              cases e5 : autogrid Xa wlo whi wm with
              | error e => rfl
              | ok g =>
                show (gridDists (shiftAxes _ g.grids) >>= _) = _
                rw [gridDists_shift]
                simp only [ok_bind]
                cases e6 : gridDists g.grids with
                | error e => rfl
                | ok d =>
                  simp only [ok_bind]
                  have hX : ∀ X ∈ Xa, X.WF ∧ X.cols = ad.length := by
                    intro X hX
                    obtain ⟨Z, -, hZ⟩ := mapExcept_mem e4 X hX
                    exact ⟨(takeCols_facts hZ).1, (takeCols_facts hZ).2.1⟩
                  rw [multiInterpolant_shift (movedAt t ad) hX]
                  cases multiInterpolant (Xa.map Arr2.nd) (g.grids.map NDArr.vec) <;> rfl

theorem generateGrids_moved (t : ℕ → ℝ) (fk : FK) (Xs : List (Arr2 ℝ)) {lo lo' hi hi' : GridOpt} (hlo : lo.Moved t lo') (hhi : hi.Moved t hi') (m : GridOpt) :
    generateGrids fk (Xs.map (Arr2.moved t)) lo' hi' m =
      (generateGrids fk Xs lo hi m).map (List.map fun g => (g.1, { g.2 with axes := shiftAxes (movedAt t g.1) g.2.axes })) := by
  unfold generateGrids
  refine mapExcept_moved fun ad _ => ?_
  rw [generateGrid_moved t Xs hlo hhi]
  cases generateGrid Xs lo hi m ad <;> rfl

theorem padDim_moved (t : ℕ → ℝ) (p : ℕ) (X : NDArr ℝ) : padDim p (X.moved t) = (padDim p X).map (Arr2.moved t) := by
  obtain ⟨shape, data⟩ := X
  match shape with
  | [] => rfl
  | [n] =>
    unfold padDim NDArr.moved
    simp only
    split_ifs
    · rfl
    · show Except.ok _ = Except.ok _
      congr 1
      show (⟨n, 1, _⟩ : Arr2 ℝ) = Arr2.of n 1 _
      unfold Arr2.of
      congr 1
      rw [mul_one]
      refine vmk_congr fun i _ => ?_
      unfold Arr2.get
      simp [Nat.mod_one]
  | [n, c] =>
    unfold padDim NDArr.moved
    simp only
    split_ifs <;> rfl
  | a :: b :: c :: l => rfl

theorem padDims_moved (t : ℕ → ℝ) (p : ℕ) (Xs : List (NDArr ℝ)) : padDims p (Xs.map (NDArr.moved t)) = (padDims p Xs).map (List.map (Arr2.moved t)) := by
  unfold padDims
  rw [mapExcept_map]
  exact mapExcept_moved fun X _ => padDim_moved t p X

theorem padDims_wf {p : ℕ} {Xs : List (NDArr ℝ)} (h : ∀ X ∈ Xs, X.WF) {Q : List (Arr2 ℝ)} (hQ : padDims p Xs = .ok Q) : ∀ X ∈ Q, X.WF := by
  intro X hX
  obtain ⟨Z, hZ, e⟩ := mapExcept_mem hQ X hX
  have hw := h Z hZ
  obtain ⟨shape, data⟩ := Z
  unfold NDArr.WF at hw
  unfold padDim at e
  match shape with
  | [] => simp at e
  | [n] =>
    simp only at e
    split_ifs at e
    cases e
    show data.length = n * 1
    simpa using hw
  | [n, c] =>
    simp only at e
    split_ifs at e
    cases e
    show data.length = n * c
    simpa using hw
  | a :: b :: c :: l => simp at e

theorem shape_moved (t : ℕ → ℝ) (X : NDArr ℝ) : (X.moved t).shape = X.shape := by
  obtain ⟨shape, data⟩ := X
  match shape with
  | [] => rfl
  | [n] => rfl
  | [n, c] => rfl
  | a :: b :: c :: l => rfl

theorem validateIO_moved (t : ℕ → ℝ) (Xs Ys : List (NDArr ℝ)) : validateIO (Xs.map (NDArr.moved t)) Ys = validateIO Xs Ys := by
  have e1 : mapExcept checkPair ((Xs.map (NDArr.moved t)).zip Ys) = mapExcept checkPair (Xs.zip Ys) := by
    rw [List.zip_map_left, mapExcept_map]
    refine mapExcept_congr' fun XY _ => ?_
    unfold checkPair NDArr.len NDArr.ndim
    simp only [Prod.map_fst, Prod.map_snd, shape_moved, id]
  have e2 : inputDimOf (Xs.map (NDArr.moved t)) = inputDimOf Xs := by
    have : dimSet (Xs.map (NDArr.moved t)) = dimSet Xs := by
      unfold dimSet
      rw [List.filter_map, List.map_map]
      congr 1
      rw [show (fun X : NDArr ℝ => decide (1 < X.ndim)) ∘ NDArr.moved t = fun X => decide (1 < X.ndim) from funext fun X => by
        show decide (1 < (X.moved t).ndim) = _
        unfold NDArr.ndim
        rw [shape_moved]]
      refine List.map_congr_left fun X _ => ?_
      show (X.moved t).shape.getD 1 0 = _
      rw [shape_moved]
    unfold inputDimOf
    rw [this]
  unfold validateIO
  rw [e1, e2, List.length_map]
  simp only [List.map_eq_nil_iff]

theorem multiGPNew_moved (t : ℕ → ℝ) (Xs Ys : List (NDArr ℝ)) (b : Bool) :
    multiGPNew (Xs.map (NDArr.moved t)) Ys b = (multiGPNew Xs Ys b).map fun gp => { gp with Xs := gp.Xs.map (Arr2.moved t) } := by
  unfold multiGPNew
  rw [validateIO_moved]
  cases validateIO Xs Ys with
  | error e => rfl
  | ok pd =>
    obtain ⟨p, d⟩ := pd
    simp only [ok_bind]
    rw [padDims_moved]
    cases b with
    | false =>
      simp only [Bool.false_eq_true, if_false]
      cases padDims p Xs <;> rfl
    | true =>
      simp only [if_true]
      cases mapExcept (fun nY : Norm × NDArr ℝ => nY.1.normalize nY.2.data) (((List.replicate Ys.length Norm.new).zipWith (fun n Y => n.scaleBy (Y.data.map some)) Ys).zip Ys) with
      | error e => rfl
      | ok Y => cases padDims p Xs <;> rfl

theorem multiGPNew_wf {Xs Ys : List (NDArr ℝ)} {b : Bool} {gp : MultiGP} (hX : ∀ X ∈ Xs, X.WF) (h : multiGPNew Xs Ys b = .ok gp) : ∀ X ∈ gp.Xs, X.WF := by
  unfold multiGPNew at h
  obtain ⟨⟨p, d⟩, h1, h⟩ := bind_ok.1 h
  cases b with
  | false =>
    simp only [Bool.false_eq_true, if_false] at h
    obtain ⟨X', h2, h⟩ := bind_ok.1 h
    cases h
    exact padDims_wf hX h2
  | true =>
    simp only [if_true] at h
    obtain ⟨Y', h2, h⟩ := bind_ok.1 h
    obtain ⟨X', h3, h⟩ := bind_ok.1 h
    cases h
    exact padDims_wf hX h3

/-- query points moved by `t` -/
def MovedPoints (t : ℕ → ℝ) (Q Q' : List (Arr2 ℝ)) : Prop := (∀ X ∈ Q, X.WF) ∧ Q' = Q.map (Arr2.moved t)

/-- the attributes of the base class differ in the inputs only -/
def MovedGP (gp gp' : MultiGP) : Prop := gp' = { gp with Xs := gp'.Xs }

theorem dictGet_moved {β : Type} {f : List ℕ → β → β} : ∀ (d : List (List ℕ × β)) (k : List ℕ), dictGet (d.map fun x => (x.1, f x.1 x.2)) k = (dictGet d k).map (f k)
  | [], k => rfl
  | (a, b) :: d, k => by
    rw [List.map_cons, dictGet, dictGet]
    by_cases h : a = k
    · rw [if_pos h, if_pos h, h]
      rfl
    · rw [if_neg h, if_neg h]
      exact dictGet_moved d k

theorem llgpInit_moved {t : ℕ → ℝ} {a a' : LLGPArgs} (h : a.Moved t a') : ExceptRel (Twins (MovedPoints t) MovedGP) (llgpInit a) (llgpInit a') := by
  obtain ⟨hw, same, hX, hlo, hhi⟩ := h
  rw [same]
  unfold llgpInit
  simp only
  rw [hX, multiGPNew_moved]
  cases h1 : multiGPNew a.Xs a.Ys a.normalize with
  | error e => exact rfl
  | ok gp =>
    simp only [Except.map, ok_bind]
    cases hf : a.functionalKernel with
    | none => exact rfl
    | some fk =>
      cases hp : predMode a.prediction with
      | none => exact rfl
      | some mode =>
        simp only
        cases hs : fk.setInputDim gp.inputDim with
        | error e => exact rfl
        | ok fk' =>
          simp only [ok_bind]
          rw [generateGrids_moved t fk' gp.Xs hlo hhi]
          cases hgr : generateGrids fk' gp.Xs a.lo a.hi a.m with
          | error e => exact rfl
          | ok grids =>
            have hwf := multiGPNew_wf hw h1
            refine ⟨rfl, rfl, rfl, rfl, ?_, ?_, ?_, ?_, ?_, rfl⟩
            · show List.map _ (List.map _ grids) = List.map _ grids
              rw [List.map_map]
              rfl
            · show List.map _ (List.map _ grids) = List.map _ grids
              rw [List.map_map]
              rfl
            · intro fk
              exact exactLMCNew_moved t hwf _ fk
            · rintro Q _ ⟨hQ, rfl⟩ fk
              exact kernelFromIndices_moved t hQ hwf fk
            · rintro Q _ ⟨hQ, rfl⟩ ga
              unfold LLGP.predictGroup
              rw [takeColsAll_moved]
              cases e4 : mapExcept (fun X => takeCols X ga.1) Q with
              | error e => rfl
              | ok Xa =>
                show (dictIdx (List.map _ (List.map _ grids)) ga.1 >>= _) = (dictIdx (List.map _ grids) ga.1 >>= _)
                unfold dictIdx
                have e5 : (List.map (fun g : List ℕ × GroupGrid => (g.1, g.2.axes)) (List.map (fun g : List ℕ × GroupGrid => (g.1, ({ g.2 with axes := shiftAxes (movedAt t g.1) g.2.axes } : GroupGrid))) grids)) =
                    (List.map (fun g : List ℕ × GroupGrid => (g.1, g.2.axes)) grids).map fun x => (x.1, shiftAxes (movedAt t x.1) x.2) := by
                  rw [List.map_map, List.map_map]
                  rfl
                rw [e5, dictGet_moved (f := fun ad axes => shiftAxes (movedAt t ad) axes)]
                cases dictGet (List.map (fun g : List ℕ × GroupGrid => (g.1, g.2.axes)) grids) ga.1 with
                | none => rfl
                | some axes =>
                  have hXa : ∀ X ∈ Xa, X.WF ∧ X.cols = ga.1.length := by
                    intro X hX
                    obtain ⟨Z, -, hZ⟩ := mapExcept_mem e4 X hX
                    exact ⟨(takeCols_facts hZ).1, (takeCols_facts hZ).2.1⟩
                  show (multiInterpolant ((Xa.map _).map Arr2.nd) ((shiftAxes _ axes).map NDArr.vec) >>= _) = _
                  rw [multiInterpolant_shift (movedAt t ga.1) hXa]
                  rfl

theorem pad_rel (t : ℕ → ℝ) {Qs : List (NDArr ℝ)} (h : ∀ Q ∈ Qs, Q.WF) (p : ℕ) :
    ExceptRel (fun Q Q' => MovedPoints t Q Q' ∧ Q'.map Arr2.rows = Q.map Arr2.rows ∧ Q'.map Arr2.cols = Q.map Arr2.cols) (padDims p Qs) (padDims p (Qs.map (NDArr.moved t))) := by
  rw [padDims_moved]
  cases e : padDims p Qs with
  | error e => exact rfl
  | ok Q => exact ⟨⟨padDims_wf h e, rfl⟩, rows_moved t Q, cols_moved t Q⟩

theorem predictWith_moved (t : ℕ → ℝ) {gp gp' : MultiGP} (h : MovedGP gp gp') (Q : List (Arr2 ℝ)) (r : Except PyErr Predicted) (b : Bool) :
    gp'.predictWith (fun _ => r) (Q.map (Arr2.moved t)) b = gp.predictWith (fun _ => r) Q b := by
  rw [h]
  unfold MultiGP.predictWith
  rw [List.length_map]
  have : (∀ X ∈ Q.map (Arr2.moved t), X.cols = gp.inputDim) ↔ ∀ X ∈ Q, X.cols = gp.inputDim := by
    constructor
    · intro h X hX
      exact h (X.moved t) (List.mem_map_of_mem hX)
    · intro h X hX
      obtain ⟨Z, hZ, rfl⟩ := List.mem_map.1 hX
      exact h Z hZ
  simp only [this]

theorem op_moved {t : ℕ → ℝ} (u : Bool) (sv : Solvers) {op op' : Op} (h : op.Moved t op') : Sim (MovedPoints t) MovedGP Eq (execOp u sv op) (execOp u sv op') := by
  cases op with
  | new a e =>
    cases op' with
    | new a' e' =>
      obtain ⟨h, rfl⟩ := h
      exact new_sim (llgpInit_moved h) u sv e'
    | set i fk e => exact h.elim
    | optimize i => exact h.elim
    | ask i q e => exact h.elim
  | set i fk e =>
    cases op' with
    | new a' e' => exact h.elim
    | set i' fk' e' =>
      obtain ⟨rfl, rfl, rfl⟩ := h
      exact set_sim u sv _ _ _
    | optimize i => exact h.elim
    | ask i q e => exact h.elim
  | optimize i =>
    cases op' with
    | new a' e' => exact h.elim
    | set i' fk' e' => exact h.elim
    | optimize i' =>
      have h : i' = i := h
      subst h
      exact optimize_sim u sv _
    | ask i q e => exact h.elim
  | ask i q e =>
    cases op' with
    | new a' e' => exact h.elim
    | set i' fk' e' => exact h.elim
    | optimize i' => exact h.elim
    | ask i' q' e' =>
      obtain ⟨rfl, hq, rfl, rfl⟩ := h
      cases q with
      | predict Qs =>
        show Sim _ _ _ (askM u sv e' i' (.predict Qs)) (askM u sv e' i' (.predict (Qs.map (NDArr.moved t))))
        refine Sim.bind (publicPredict_sim (ρ := Eq) u sv e' i' (pad_rel t hq) fun gp gp' h hd _ r => ExceptRel.refl ?_) ?_
        · unfold MultiGP.predict
          rw [hd, padDims_moved]
          cases padDims gp.inputDim Qs with
          | error e => rfl
          | ok Q => exact (predictWith_moved t h Q r true).symm
        · rintro p _ rfl
          exact Sim.pure rfl
      | quantiles Qs qs =>
        show Sim _ _ _ (askM u sv e' i' (.quantiles Qs qs)) (askM u sv e' i' (.quantiles (Qs.map (NDArr.moved t)) qs))
        refine Sim.bind (publicPredict_sim (ρ := Eq) u sv e' i' (pad_rel t hq) fun gp gp' h hd _ r => ExceptRel.refl ?_) ?_
        · unfold MultiGP.predictQuantiles
          rw [hd, padDims_moved]
          cases padDims gp.inputDim Qs with
          | error e => rfl
          | ok Q =>
            show _ = (gp'.predictWith _ (Q.map _) false >>= _)
            rw [predictWith_moved t h Q r false, show gp'.normalizer = gp.normalizer from by rw [h]]
            rfl
        · rintro p _ rfl
          exact Sim.pure rfl
      | covariance => exact ask_other_sim u sv e' i' (by simp) (by simp)
      | logDet => exact ask_other_sim u sv e' i' (by simp) (by simp)
      | normalQuadratic => exact ask_other_sim u sv e' i' (by simp) (by simp)
      | logLikelihood => exact ask_other_sim u sv e' i' (by simp) (by simp)

theorem results_eq {r r' : List (Except PyErr Answer)} (h : List.Forall₂ (ExceptRel Eq) r r') : r' = r := by
  induction h with
  | nil => rfl
  | cons h _ ih => rw [ih, h.eq]

end Verif
