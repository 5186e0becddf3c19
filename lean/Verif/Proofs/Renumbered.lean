import Verif.Spec.Renumbered
import Verif.Proofs.Relabelled
import Verif.Proofs.WorkPrice

/-! Lemmas for C111: the order of the dimensions of the inputs. -/

namespace Verif

/-! ### grids -/

theorem zip2_pair (f : ℝ → ℝ → ℝ) {u v : List ℝ} (hu : u.length = 2) (hv : v.length = 2) : zip2 f u.reverse v.reverse = (zip2 f u v).reverse ∧ (zip2 f u v).length = 2 := by
  obtain ⟨a, b, rfl⟩ := List.length_eq_two.1 hu
  obtain ⟨c, d, rfl⟩ := List.length_eq_two.1 hv
  exact ⟨rfl, rfl⟩

theorem foldl_zip2_pair (f : ℝ → ℝ → ℝ) : ∀ (l : List (List ℝ)), (∀ v ∈ l, v.length = 2) → ∀ {a : List ℝ}, a.length = 2 →
    (l.map List.reverse).foldl (zip2 f) a.reverse = (l.foldl (zip2 f) a).reverse ∧ (l.foldl (zip2 f) a).length = 2
  | [], _, a, ha => ⟨rfl, ha⟩
  | v :: l, h, a, ha => by
    obtain ⟨z1, z2⟩ := zip2_pair f ha (h v List.mem_cons_self)
    rw [List.map_cons, List.foldl_cons, List.foldl_cons, z1]
    exact foldl_zip2_pair f l (fun w hw => h w (List.mem_cons_of_mem _ hw)) z2

/-- the two columns of `X` in the other order -/
noncomputable def Arr2.flip2 (X : Arr2 ℝ) : Arr2 ℝ := Arr2.of X.rows 2 fun i c => X.get i (1 - c)

theorem takeCols_pair (X : Arr2 ℝ) (a b : ℕ) : takeCols X [b, a] = (takeCols X [a, b]).map Arr2.flip2 := by
  unfold takeCols
  by_cases h : ∀ c ∈ [a, b], c < X.cols
  · rw [if_pos h, if_pos (show ∀ c ∈ [b, a], c < X.cols from fun c hc => h c (by simp only [List.mem_cons, List.not_mem_nil, or_false] at hc ⊢; tauto))]
    refine congrArg Except.ok ?_
    refine Arr2.of_congr fun i hi k hk => ?_
    have hk : k < 2 := hk
    rw [Arr2.of_get (show i < X.rows from hi) (show 1 - k < [a, b].length by show 1 - k < 2; omega)]
    interval_cases k <;> rfl
  · rw [if_neg h, if_neg (show ¬ ∀ c ∈ [b, a], c < X.cols from fun h' => h fun c hc => h' c (by simp only [List.mem_cons, List.not_mem_nil, or_false] at hc ⊢; tauto))]
    rfl

theorem axisReduce_flip (f : ℝ → ℝ → ℝ) {X : Arr2 ℝ} (hX : X.cols = 2) : axisReduce f X.flip2 = (axisReduce f X).map List.reverse := by
  unfold axisReduce
  by_cases h : X.rows = 0
  · rw [if_pos h, if_pos (show X.flip2.rows = 0 from h)]
    rfl
  · rw [if_neg h, if_neg (show ¬ X.flip2.rows = 0 from h)]
    refine congrArg Except.ok ?_
    have key : ∀ c < 2, (X.flip2.col c).tail.foldl f (X.flip2.get 0 c) = (X.col (1 - c)).tail.foldl f (X.get 0 (1 - c)) := fun c hc => by
      have e : ∀ i < X.rows, X.flip2.get i c = X.get i (1 - c) := fun i hi => Arr2.of_get hi hc
      rw [e 0 (by omega)]
      congr 2
      unfold Arr2.col
      exact vmk_congr fun i hi => e i hi
    have k0 := key 0 (by norm_num)
    have k1 := key 1 (by norm_num)
    rw [hX, show X.flip2.cols = 2 from rfl]
    simp only [vmk, List.range_succ, List.range_zero, List.nil_append, List.map_cons, List.map_nil, List.cons_append, List.reverse_cons, List.reverse_nil, k0, k1]

/-- what is given to `autogrid` for two dimensions, in the other order -/
def GridArg.Flipped (a a' : GridArg) : Prop := a'.vals = a.vals.map List.reverse

theorem fits_flipped {a a' : GridArg} (h : a.Flipped a') (P : ℕ) : a'.fits P ↔ a.fits P := by
  unfold GridArg.fits
  rw [h]
  cases a.vals with
  | none => simp
  | some v => simp

theorem axes_pair {lo hi mv : List ℝ} (h1 : lo.length = 2) (h2 : hi.length = 2) (h3 : mv.length = 2) :
    List.zipWith (fun (lh : ℝ × ℝ) mm => linspace lh.1 lh.2 (pyInt mm)) (lo.reverse.zip hi.reverse) mv.reverse =
      (List.zipWith (fun (lh : ℝ × ℝ) mm => linspace lh.1 lh.2 (pyInt mm)) (lo.zip hi) mv).reverse := by
  obtain ⟨a, b, rfl⟩ := List.length_eq_two.1 h1
  obtain ⟨c, d, rfl⟩ := List.length_eq_two.1 h2
  obtain ⟨e, f, rfl⟩ := List.length_eq_two.1 h3
  rfl

theorem mapExcept_len2 {f : ℝ → ℝ → ℝ} {Xs : List (Arr2 ℝ)} (hX : ∀ X ∈ Xs, X.cols = 2) {l : List (List ℝ)} (h : mapExcept (axisReduce f) Xs = .ok l) : ∀ v ∈ l, v.length = 2 := by
  intro v hv
  obtain ⟨X, h1, h2⟩ := forall₂_mem_right (mapExcept_inv h) hv
  unfold axisReduce at h2
  split_ifs at h2
  rw [← Except.ok.inj h2, vmk_length, hX X h1]

theorem headD_pair {l : List (List ℝ)} (h : ∀ v ∈ l, v.length = 2) (hl : l ≠ []) (f : ℝ → ℝ → ℝ) :
    (l.map List.reverse).tail.foldl (zip2 f) ((l.map List.reverse).headD []) = (l.tail.foldl (zip2 f) (l.headD [])).reverse ∧ (l.tail.foldl (zip2 f) (l.headD [])).length = 2 := by
  cases l with
  | nil => exact absurd rfl hl
  | cons a l => exact foldl_zip2_pair f l (fun v hv => h v (List.mem_cons_of_mem _ hv)) (h a List.mem_cons_self)

/-- the end of `autogrid` -/
noncomputable def gridOfBounds (lv hv mv : List ℝ) (z : GridArg) : Except PyErr AutogridResult :=
  if ∃ mm ∈ mv.map (· + 4), mm ≤ -1 then .error .valueError
  else pure { grids := List.zipWith (fun (lh : ℝ × ℝ) mm => linspace lh.1 lh.2 (pyInt mm)) ((zip2 (fun l d => l - 2 * d) lv (zip2 (· / ·) (zip2 (· - ·) hv lv) mv)).zip
                (zip2 (fun h d => h + 2 * d) hv (zip2 (· / ·) (zip2 (· - ·) hv lv) mv))) (mv.map (· + 4)),
              mAfter := z }

theorem gridOfBounds_flipped {lv hv mv : List ℝ} (l1 : lv.length = 2) (h3 : hv.length = 2) (m1 : mv.length = 2) {z z' : GridArg} {g g' : AutogridResult}
    (hg : gridOfBounds lv hv mv z = .ok g) (hg' : gridOfBounds lv.reverse hv.reverse mv.reverse z' = .ok g') : g'.grids = g.grids.reverse := by
  obtain ⟨d1, d2⟩ := zip2_pair (· - ·) h3 l1
  obtain ⟨d3, d4⟩ := zip2_pair (· / ·) d2 m1
  obtain ⟨d5, d6⟩ := zip2_pair (fun l d => l - 2 * d) l1 d4
  obtain ⟨d7, d8⟩ := zip2_pair (fun h d => h + 2 * d) h3 d4
  unfold gridOfBounds at hg hg'
  rw [d1, d3, d5, d7, List.map_reverse] at hg'
  split_ifs at hg
  split_ifs at hg'
  rw [← Except.ok.inj hg, ← Except.ok.inj hg']
  exact axes_pair d6 d8 (by rw [List.length_map]; exact m1)

/-- a bound given, or found -/
def boundOf (f : ℝ → ℝ → ℝ) (o : Option (List ℝ)) (d : List ℝ) : List ℝ :=
  match o with
  | none => d
  | some v => zip2 f v d

/-- sizes given, or the usual ones -/
def sizesOf (o : Option (List ℝ)) (t : ℝ) : List ℝ :=
  match o with
  | none => vmk 2 fun _ => t
  | some v => v

theorem boundOf_flipped {f : ℝ → ℝ → ℝ} {a a' : GridArg} (h : a.Flipped a') (hf : a.fits 2) {d : List ℝ} (hd : d.length = 2) :
    boundOf f a'.vals d.reverse = (boundOf f a.vals d).reverse ∧ (boundOf f a.vals d).length = 2 := by
  rw [h]
  cases hv : a.vals with
  | none => exact ⟨rfl, hd⟩
  | some v => exact zip2_pair f (hf v hv) hd

theorem sizesOf_flipped {a a' : GridArg} (h : a.Flipped a') (hf : a.fits 2) (t : ℝ) : sizesOf a'.vals t = (sizesOf a.vals t).reverse ∧ (sizesOf a.vals t).length = 2 := by
  rw [h]
  cases hv : a.vals with
  | none => exact ⟨rfl, rfl⟩
  | some v => exact ⟨rfl, hf v hv⟩

theorem autogrid_flipped {Xs : List (Arr2 ℝ)} (hX : ∀ X ∈ Xs, X.cols = 2) {lo lo' hi hi' m m' : GridArg} (hlo : lo.Flipped lo') (hhi : hi.Flipped hi') (hm : m.Flipped m')
    {g g' : AutogridResult} (hg : autogrid Xs lo hi m = .ok g) (hg' : autogrid (Xs.map Arr2.flip2) lo' hi' m' = .ok g') : g'.grids = g.grids.reverse := by
  cases Xs with
  | nil => cases hg
  | cons X rest =>
    have e1 : mapExcept (axisReduce min) ((X :: rest).map Arr2.flip2) = (mapExcept (axisReduce min) (X :: rest)).map (List.map List.reverse) := by
      rw [mapExcept_map]
      exact mapExcept_moved fun Y hY => axisReduce_flip min (hX Y hY)
    have e2 : mapExcept (axisReduce max) ((X :: rest).map Arr2.flip2) = (mapExcept (axisReduce max) (X :: rest)).map (List.map List.reverse) := by
      rw [mapExcept_map]
      exact mapExcept_moved fun Y hY => axisReduce_flip max (hX Y hY)
    have e3 : ((X :: rest).map Arr2.flip2).map Arr2.rows = (X :: rest).map Arr2.rows := by rw [List.map_map]; rfl
    have hc : X.cols = 2 := hX X List.mem_cons_self
    have hne : ∀ {f : ℝ → ℝ → ℝ} {l : List (List ℝ)}, mapExcept (axisReduce f) (X :: rest) = .ok l → l ≠ [] := fun {f l} h e => by
      have := (mapExcept_inv h).length_eq
      rw [e] at this
      cases this
    rw [List.map_cons] at hg' e1 e2 e3
    unfold autogrid at hg hg'
    simp only [e1, e2, e3, List.length_cons, List.length_map] at hg hg'
    rw [hc] at hg
    rw [show X.flip2.cols = 2 from rfl] at hg'
    by_cases c1 : lo.fits 2
    swap
    · rw [if_pos c1] at hg; cases hg
    rw [if_neg (not_not.2 c1)] at hg
    rw [if_neg (not_not.2 ((fits_flipped hlo 2).2 c1))] at hg'
    by_cases c2 : hi.fits 2
    swap
    · rw [if_pos c2] at hg; cases hg
    rw [if_neg (not_not.2 c2)] at hg
    rw [if_neg (not_not.2 ((fits_flipped hhi 2).2 c2))] at hg'
    by_cases c3 : m.fits 2
    swap
    · rw [if_pos c3] at hg; cases hg
    rw [if_neg (not_not.2 c3)] at hg
    rw [if_neg (not_not.2 ((fits_flipped hm 2).2 c3))] at hg'
    cases h1 : mapExcept (axisReduce min) (X :: rest) with
    | error e => rw [h1] at hg; cases hg
    | ok mins =>
      cases h2 : mapExcept (axisReduce max) (X :: rest) with
      | error e => rw [h1, h2] at hg; cases hg
      | ok maxs =>
        rw [h1, h2] at hg hg'
        simp only [Except.map, ok_bind] at hg hg'
        obtain ⟨n1, n2⟩ := headD_pair (mapExcept_len2 hX h1) (hne h1) min
        obtain ⟨x1, x2⟩ := headD_pair (mapExcept_len2 hX h2) (hne h2) max
        rw [n1, x1] at hg'
        revert n1 n2 x1 x2 hg hg'
        generalize mins.tail.foldl (zip2 min) (mins.headD []) = mn
        generalize maxs.tail.foldl (zip2 max) (maxs.headD []) = mx
        intro hg' hg n1 n2 x1 x2
        generalize ht : ((((X :: rest).map Arr2.rows).sum / (rest.length + 1) : ℕ) : ℝ) = t at hg hg'
        have hg : gridOfBounds (boundOf min lo.vals mn) (boundOf max hi.vals mx) (sizesOf m.vals t) _ = .ok g := hg
        have hg' : gridOfBounds (boundOf min lo'.vals mn.reverse) (boundOf max hi'.vals mx.reverse) (sizesOf m'.vals t) _ = .ok g' := hg'
        obtain ⟨l1, l2⟩ := boundOf_flipped (f := min) hlo c1 n2
        obtain ⟨h1, h2⟩ := boundOf_flipped (f := max) hhi c2 x2
        obtain ⟨m1, m2⟩ := sizesOf_flipped hm c3 t
        rw [l1, h1, m1] at hg'
        exact gridOfBounds_flipped l2 h2 m2 hg hg'

theorem wrapOpt_flipped {x : GridOpt} {a b : ℕ} {v v' : GridArg} (h : wrapOpt x [a, b] = .ok v) (h' : wrapOpt x [b, a] = .ok v') : v.Flipped v' := by
  cases x with
  | none => cases h; cases h'; rfl
  | scalar y => cases h
  | vec y =>
    unfold wrapOpt at h h'
    simp only at h h'
    split_ifs at h
    split_ifs at h'
    cases h
    cases h'
    rfl

theorem generateGrid_flipped {Xs : List (Arr2 ℝ)} {lo hi m : GridOpt} {a b : ℕ} {g g' : GroupGrid} (hg : generateGrid Xs lo hi m [a, b] = .ok g)
    (hg' : generateGrid Xs lo hi m [b, a] = .ok g') : g'.axes = g.axes.reverse := by
  unfold generateGrid at hg hg'
  simp only [bind_ok, pure_ok] at hg hg'
  obtain ⟨a1, b1, a2, b2, a3, b3, Xa, b4, G, b5, d, -, W, -, rfl⟩ := hg
  obtain ⟨a1', b1', a2', b2', a3', b3', Xa', b4', G', b5', d', -, W', -, rfl⟩ := hg'
  rw [show (fun X => takeCols X [b, a]) = fun X => (takeCols X [a, b]).map Arr2.flip2 from funext fun X => takeCols_pair X a b] at b4'
  have e : mapExcept (fun X => (takeCols X [a, b]).map Arr2.flip2) Xs = (mapExcept (fun X => takeCols X [a, b]) Xs).map (List.map Arr2.flip2) := by
    exact mapExcept_moved fun _ _ => rfl
  rw [e, b4] at b4'
  have b4' : Except.ok (Xa.map Arr2.flip2) = Except.ok (ε := PyErr) Xa' := b4'
  rw [← Except.ok.inj b4'] at b5'
  refine autogrid_flipped (fun X hX => ?_) (wrapOpt_flipped b1 b1') (wrapOpt_flipped b2 b2') (wrapOpt_flipped b3 b3') b5 b5'
  obtain ⟨Y, -, hY⟩ := forall₂_mem_right (mapExcept_inv b4) hX
  unfold takeCols at hY
  split_ifs at hY
  rw [← Except.ok.inj hY]
  rfl

/-- the same points, the coordinates under their new numbers -/
structure Arr2.Ren (P : ℕ) (ρ : ℕ → ℕ) (X X' : Arr2 ℝ) : Prop where
  cols : X.cols = P
  cols' : X'.cols = P
  rows : X'.rows = X.rows
  get : ∀ i < X.rows, ∀ c < P, X'.get i (ρ c) = X.get i c

theorem takeCols_ren {P : ℕ} {ρ : ℕ → ℕ} (hρ : Permutes P ρ) {X X' : Arr2 ℝ} (h : X.Ren P ρ X') {ad : List ℕ} (had : ∀ c ∈ ad, c < P) : takeCols X' (ad.map ρ) = takeCols X ad := by
  unfold takeCols
  rw [if_pos (show ∀ c ∈ ad, c < X.cols by rw [h.cols]; exact had), if_pos (show ∀ c ∈ ad.map ρ, c < X'.cols by
    rw [h.cols']
    intro c hc
    obtain ⟨d, hd, rfl⟩ := List.mem_map.1 hc
    exact hρ.1 d (had d hd))]
  refine congrArg Except.ok ?_
  rw [h.rows, List.length_map]
  refine Arr2.of_congr fun i hi k hk => ?_
  rw [map_getD_lt hk _ _ 0, h.get i hi _ (had _ (getD_mem_of_lt hk 0))]

theorem wrapOpt_ren {P : ℕ} {ρ : ℕ → ℕ} (hρ : Permutes P ρ) {x x' : GridOpt} (h : x.Renumbered P ρ x') {ad : List ℕ} (had : ∀ c ∈ ad, c < P) : wrapOpt x' (ad.map ρ) = wrapOpt x ad := by
  cases x with
  | none =>
    cases x' with
    | none => rfl
    | scalar v => exact h.elim
    | vec v => exact h.elim
  | scalar v =>
    cases x' with
    | none => exact h.elim
    | scalar v' =>
      have h : v' = v := h
      subst h
      unfold wrapOpt
      simp only [List.length_map]
    | vec v => exact h.elim
  | vec v =>
    cases x' with
    | none => exact h.elim
    | scalar v' => exact h.elim
    | vec v' =>
      have h : RelabelledList P ρ v v' := h
      unfold wrapOpt
      simp only
      rw [if_pos (show ∀ c ∈ ad, c < v.length by rw [h.1]; exact had), if_pos (show ∀ c ∈ ad.map ρ, c < v'.length by
        rw [h.2.1]
        intro c hc
        obtain ⟨d, hd, rfl⟩ := List.mem_map.1 hc
        exact hρ.1 d (had d hd)), List.map_map]
      refine congrArg (fun l => Except.ok (GridArg.ndarray l)) (List.map_congr_left fun c hc => ?_)
      exact h.getD 0 (had c hc)

theorem generateGrid_ren {P : ℕ} {ρ : ℕ → ℕ} (hρ : Permutes P ρ) {Xs Xs' : List (Arr2 ℝ)} (hX : List.Forall₂ (Arr2.Ren P ρ) Xs Xs') {lo lo' hi hi' m m' : GridOpt}
    (hlo : lo.Renumbered P ρ lo') (hhi : hi.Renumbered P ρ hi') (hm : m.Renumbered P ρ m') {ad : List ℕ} (had : ∀ c ∈ ad, c < P) :
    generateGrid Xs' lo' hi' m' (ad.map ρ) = generateGrid Xs lo hi m ad := by
  unfold generateGrid
  rw [wrapOpt_ren hρ hlo had, wrapOpt_ren hρ hhi had, wrapOpt_ren hρ hm had]
  have : mapExcept (fun X => takeCols X (ad.map ρ)) Xs' = mapExcept (fun X => takeCols X ad) Xs := by
    induction hX with
    | nil => rfl
    | cons h _ ih =>
      simp only [mapExcept]
      rw [takeCols_ren hρ h had, ih]
  rw [this]

/-- the place of point `p` of a product grid when the two axes change places -/
def flipIdx (axes : List (List ℝ)) (p : ℕ) : ℕ := p % (axes.getD 1 []).length * (axes.getD 0 []).length + p / (axes.getD 1 []).length

theorem flipIdx_pair {A B : List ℝ} {p : ℕ} (hp : p < gridSize [A, B]) : p / B.length < A.length ∧ p % B.length < B.length ∧
    flipIdx [A, B] p / A.length = p % B.length ∧ flipIdx [A, B] p % A.length = p / B.length := by
  have hp : p < A.length * B.length := by simpa [gridSize] using hp
  have hB : 0 < B.length := by
    rcases Nat.eq_zero_or_pos B.length with h | h
    · rw [h] at hp; omega
    · exact h
  have h1 : p / B.length < A.length := Nat.div_lt_of_lt_mul (by rw [mul_comm]; exact hp)
  refine ⟨h1, Nat.mod_lt _ hB, ?_, ?_⟩
  · show (p % B.length * A.length + p / B.length) / A.length = _
    rw [mul_comm, Nat.mul_add_div (lt_of_le_of_lt (Nat.zero_le _) h1), Nat.div_eq_of_lt h1, add_zero]
  · show (p % B.length * A.length + p / B.length) % A.length = _
    rw [mul_comm, Nat.mul_add_mod, Nat.mod_eq_of_lt h1]

theorem flip_size (A B : List ℝ) : gridSize [B, A] = gridSize [A, B] := by
  simp [gridSize, mul_comm]

theorem flipIdx_lt {A B : List ℝ} {p : ℕ} (hp : p < gridSize [A, B]) : flipIdx [A, B] p < gridSize [A, B] := by
  obtain ⟨h1, h2, -, -⟩ := flipIdx_pair hp
  have : p % B.length * A.length + p / B.length < B.length * A.length := by
    calc p % B.length * A.length + p / B.length < p % B.length * A.length + A.length := by omega
      _ = (p % B.length + 1) * A.length := by ring
      _ ≤ B.length * A.length := Nat.mul_le_mul_right _ h2
  rw [← flip_size]
  simpa [gridSize, flipIdx] using this

theorem flipIdx_bij (A B : List ℝ) : Set.BijOn (flipIdx [A, B]) (Finset.range (gridSize [A, B])) (Finset.range (gridSize [A, B])) := by
  have hm : Set.MapsTo (flipIdx [A, B]) (Finset.range (gridSize [A, B])) (Finset.range (gridSize [A, B])) := fun p hp => by
    simp only [Finset.coe_range, Set.mem_Iio] at hp ⊢
    exact flipIdx_lt hp
  have hi : Set.InjOn (flipIdx [A, B]) (Finset.range (gridSize [A, B])) := fun p hp q hq e => by
    simp only [Finset.coe_range, Set.mem_Iio] at hp hq
    obtain ⟨-, -, p1, p2⟩ := flipIdx_pair hp
    obtain ⟨-, -, q1, q2⟩ := flipIdx_pair hq
    rw [e] at p1 p2
    rw [← Nat.div_add_mod p B.length, ← Nat.div_add_mod q B.length, ← p2, ← p1, q1, q2]
  exact ⟨hm, hi, Finset.surjOn_of_injOn_of_card_le _ hm hi le_rfl⟩

theorem gridWeight_flip {A B : List ℝ} {x x' : ℕ → ℝ} (h0 : x' 0 = x 1) (h1 : x' 1 = x 0) {p : ℕ} (hp : p < gridSize [A, B]) :
    gridWeight [B, A] x' (flipIdx [A, B] p) = gridWeight [A, B] x p := by
  obtain ⟨-, -, p1, p2⟩ := flipIdx_pair hp
  simp only [gridWeight, List.map_cons, List.map_nil, List.prod_cons, List.prod_nil, mul_one, Nat.div_one, zero_add, p1, p2, h0, h1]
  ring

theorem gridDistance_flip {A B : List ℝ} {p q : ℕ} (hp : p < gridSize [A, B]) (hq : q < gridSize [A, B]) :
    gridDistance [B, A] (flipIdx [A, B] p) (flipIdx [A, B] q) = gridDistance [A, B] p q := by
  obtain ⟨-, -, p1, p2⟩ := flipIdx_pair hp
  obtain ⟨-, -, q1, q2⟩ := flipIdx_pair hq
  unfold gridDistance euclid
  congr 1
  simp [gridPoint, gridSize, Finset.sum_range_succ, p1, p2, q1, q2]
  ring

/-! ### groups of dimensions -/

theorem dimsRead_sorted (P : ℕ) (k : Kern) : (dimsRead P k).Pairwise (· ≤ ·) := by
  unfold dimsRead
  cases k.activeDims with
  | none => exact List.pairwise_lt_range.imp fun h => h.le
  | some l => exact List.pairwise_insertionSort _ _

theorem made_sorted {m : LLGP} {P : ℕ} {a : LLGPArgs} (h : m.MadeFrom P a) : ∀ g ∈ m.fk.activeDims, g.1.Pairwise (· ≤ ·) := fun g hg => by
  obtain ⟨fk, m0, hd, hi, -, -, g3⟩ := h
  obtain ⟨-, -, -, f1, -⟩ := documented_fields hd hi
  obtain ⟨fk', e1, e2⟩ := setInputDim_fresh fk P hd.fresh
  rw [f1] at e1
  cases e1
  rw [g3] at hg
  obtain ⟨h1, h2⟩ := (e2.mem g.1 g.2).1 hg
  obtain ⟨q, hq⟩ := List.exists_mem_of_ne_nil _ h2
  rw [h1] at hq
  have := (List.mem_filter.1 hq).2
  rw [← of_decide_eq_true this]
  exact dimsRead_sorted P _

/-- the kernels that read the dimensions `ad` -/
def FK.readers (fk : FK) (ad : List ℕ) : List ℕ := (List.range fk.Q).filter fun q => fk.kdims q = ad

theorem mem_readers {fk : FK} {ad : List ℕ} {q : ℕ} : q ∈ fk.readers ad ↔ q < fk.Q ∧ fk.kdims q = ad := by
  unfold FK.readers
  rw [List.mem_filter, List.mem_range, decide_eq_true_iff]

theorem kdims_of {m : LLGP} {P : ℕ} (h : m.OK P) {q : ℕ} (hq : q < m.fk.Q) : (m.fk.kernels.getD q (.identity none)).activeDims = some (m.fk.kdims q) ∧
    m.fk.kdims q ∈ m.fk.activeDims.map Prod.fst := by
  obtain ⟨ad, e1, e2⟩ := h.ready.dims _ (getD_mem_of_lt (l := m.fk.kernels) hq (.identity none))
  unfold FK.kdims
  rw [e1]
  exact ⟨rfl, e2⟩

theorem group_readers {m : LLGP} {P : ℕ} (h : m.OK P) {g : List ℕ × List ℕ} (hg : g ∈ m.fk.activeDims) : g.2 = m.fk.readers g.1 ∧ g.2 ≠ [] := by
  obtain ⟨h1, h2, h3⟩ := h.groups.group g hg
  refine ⟨?_, h1⟩
  refine List.Perm.eq_of_pairwise (le := (· < ·)) (fun a b _ _ h1 h2 => absurd h1 (by omega)) h2 (List.pairwise_lt_range.filter _) ?_
  refine (List.perm_ext_iff_of_nodup (h2.imp fun h => Nat.ne_of_lt h) (List.nodup_range.filter _)).2 fun q => ?_
  rw [show (q ∈ List.filter (fun q => decide (m.fk.kdims q = g.1)) (List.range m.fk.Q)) ↔ q ∈ m.fk.readers g.1 from Iff.rfl, mem_readers]
  constructor
  · intro hq
    refine ⟨h3 q hq, ?_⟩
    have := (h.groups.members g hg q (h3 q hq)).1 hq
    unfold FK.kdims
    rw [this]
    rfl
  · rintro ⟨hq, e⟩
    refine (h.groups.members g hg q hq).2 ?_
    rw [(kdims_of h hq).1, e]

theorem mem_groups {m : LLGP} {P : ℕ} (h : m.OK P) (g : List ℕ × List ℕ) : g ∈ m.fk.activeDims ↔ g.2 = m.fk.readers g.1 ∧ g.2 ≠ [] := by
  refine ⟨group_readers h, fun ⟨h1, h2⟩ => ?_⟩
  obtain ⟨q, hq⟩ := List.exists_mem_of_ne_nil _ h2
  rw [h1, mem_readers] at hq
  have := (kdims_of h hq.1).2
  rw [hq.2] at this
  obtain ⟨g', hg', e⟩ := List.mem_map.1 this
  have : g = g' := Prod.ext e.symm (by rw [h1, (group_readers h hg').1, e])
  rw [this]
  exact hg'

/-- a group of dimensions under their new numbers -/
def renumber (ρ : ℕ → ℕ) (ad : List ℕ) : List ℕ := (ad.map ρ).insertionSort (· ≤ ·)

theorem renumber_perm (ρ : ℕ → ℕ) (ad : List ℕ) : (renumber ρ ad).Perm (ad.map ρ) := List.perm_insertionSort _ _

theorem renumber_sorted (ρ : ℕ → ℕ) (ad : List ℕ) : (renumber ρ ad).Pairwise (· ≤ ·) := List.pairwise_insertionSort _ _

theorem sorted_eq {l l' : List ℕ} (h : l.Pairwise (· ≤ ·)) (h' : l'.Pairwise (· ≤ ·)) (hp : l.Perm l') : l = l' :=
  List.Perm.eq_of_pairwise (le := (· ≤ ·)) (fun a b _ _ h1 h2 => le_antisymm h1 h2) h h' hp

theorem perm_of_map {P : ℕ} {ρ : ℕ → ℕ} (hρ : Permutes P ρ) {l l' : List ℕ} (h : ∀ c ∈ l, c < P) (h' : ∀ c ∈ l', c < P) (hp : (l.map ρ).Perm (l'.map ρ)) : l.Perm l' := by
  classical
  rw [List.perm_iff_count] at hp ⊢
  have key : ∀ {l : List ℕ}, (∀ c ∈ l, c < P) → ∀ c < P, (l.map ρ).count (ρ c) = l.count c := fun {l} h c hc => by
    unfold List.count
    rw [List.countP_map]
    refine List.countP_congr fun d hd => ?_
    simp only [Function.comp, beq_iff_eq]
    exact ⟨fun e => hρ.2 d (h d hd) c hc e, fun e => by rw [e]⟩
  intro c
  by_cases hc : c < P
  · rw [← key h c hc, ← key h' c hc, hp]
  · rw [List.count_eq_zero.2 fun hm => hc (h c hm), List.count_eq_zero.2 fun hm => hc (h' c hm)]

theorem renumber_inj {P : ℕ} {ρ : ℕ → ℕ} (hρ : Permutes P ρ) {l l' : List ℕ} (h : ∀ c ∈ l, c < P) (h' : ∀ c ∈ l', c < P) (hs : l.Pairwise (· ≤ ·)) (hs' : l'.Pairwise (· ≤ ·))
    (e : renumber ρ l = renumber ρ l') : l = l' := by
  refine sorted_eq hs hs' (perm_of_map hρ h h' ?_)
  have h1 := renumber_perm ρ l
  rw [e] at h1
  exact h1.symm.trans (renumber_perm ρ l')

theorem map_range_perm {P : ℕ} {ρ : ℕ → ℕ} (hρ : Permutes P ρ) : ((List.range P).map ρ).Perm (List.range P) := by
  have hn : ((List.range P).map ρ).Nodup := List.Nodup.map_on (fun a ha b hb h => hρ.2 a (List.mem_range.1 ha) b (List.mem_range.1 hb) h) List.nodup_range
  refine (List.subperm_of_subset hn fun c hc => ?_).perm_of_length_le (by simp)
  obtain ⟨d, hd, rfl⟩ := List.mem_map.1 hc
  exact List.mem_range.2 (hρ.1 d (List.mem_range.1 hd))

theorem renumber_full {P : ℕ} {ρ : ℕ → ℕ} (hρ : Permutes P ρ) {l : List ℕ} (h : ∀ c ∈ l, c < P) (hs : l.Pairwise (· ≤ ·)) : renumber ρ l = List.range P ↔ l = List.range P := by
  have hr : (List.range P).Pairwise (· ≤ ·) := List.pairwise_lt_range.imp fun h => h.le
  have e : renumber ρ (List.range P) = List.range P := sorted_eq (renumber_sorted _ _) hr ((renumber_perm _ _).trans (map_range_perm hρ))
  refine ⟨fun h' => renumber_inj hρ h (fun c hc => List.mem_range.1 hc) hs hr (h'.trans e.symm), fun h' => by rw [h', e]⟩

theorem renumber_pair (ρ : ℕ → ℕ) (ad : List ℕ) (hl : ad.length = 1 ∨ ad.length = 2) : renumber ρ ad = ad.map ρ ∨ ∃ a b, ad = [a, b] ∧ renumber ρ ad = [b, a].map ρ := by
  rcases hl with h | h
  · obtain ⟨a, rfl⟩ := List.length_eq_one_iff.1 h
    exact .inl rfl
  · obtain ⟨a, b, rfl⟩ := List.length_eq_two.1 h
    unfold renumber
    simp only [List.map_cons, List.map_nil, List.insertionSort_cons, List.insertionSort_nil, List.orderedInsert_nil]
    by_cases hab : ρ a ≤ ρ b
    · left
      simp [List.orderedInsert, hab]
    · right
      exact ⟨a, b, rfl, by simp [List.orderedInsert, hab]⟩

/-! ### models -/

theorem doc_of_same {k k' : Kern} (h : k'.setActiveDims none = k.setActiveDims none) : k'.doc = k.doc := by
  have key : ∀ k : Kern, (k.setActiveDims none).doc = k.doc := fun k => by
    funext r
    cases k <;> rfl
  rw [← key k, ← key k', h]

theorem ren_padded {P : ℕ} {ρ : ℕ → ℕ} {Xs Xs' : List (NDArr ℝ)} (h : RenumberedPoints P ρ Xs Xs') : List.Forall₂ (Arr2.Ren P ρ) (padded P Xs) (padded P Xs') := by
  unfold padded
  rw [List.forall₂_map_left_iff, List.forall₂_map_right_iff]
  refine h.imp fun X X' hX => ⟨rfl, rfl, ?_, fun i hi c hc => hX.2.2 i hi c hc⟩
  show X'.shape.headD 0 = X.shape.headD 0
  rw [hX.1]

theorem ren_lens {P : ℕ} {ρ : ℕ → ℕ} {Xs Xs' : List (NDArr ℝ)} (h : RenumberedPoints P ρ Xs Xs') : queryLens Xs' = queryLens Xs := by
  unfold RenumberedPoints at h
  unfold queryLens
  induction h with
  | nil => rfl
  | cons h _ ih => rw [List.map_cons, List.map_cons, ih, h.1]

/-- the same point, coordinate `c` written as coordinate `ρ c` -/
def SamePoint (P : ℕ) (ρ : ℕ → ℕ) (x x' : ℕ → ℝ) : Prop := ∀ c < P, x' (ρ c) = x c

theorem ren_point {P : ℕ} {ρ : ℕ → ℕ} {Xs Xs' : List (NDArr ℝ)} (h : RenumberedPoints P ρ Xs Xs') {d i : ℕ} (hd : d < Xs.length) (hi : i < (queryLens Xs).getD d 0) :
    SamePoint P ρ (queryPoint P Xs d i) (queryPoint P Xs' d i) := by
  intro c hc
  have hd' : d < Xs'.length := by rw [← h.length_eq]; exact hd
  have := h.get hd hd'
  unfold queryPoint
  unfold queryLens at hi
  rw [map_getD_lt hd _ _ ⟨[], []⟩] at hi
  rw [List.getD_eq_getElem _ _ hd] at hi ⊢
  rw [List.getD_eq_getElem _ _ hd']
  exact this.2.2 i hi c hc

theorem renumbered_extra {P : ℕ} {ρ : ℕ → ℕ} {m m' : LLGP} (hok : m.OK P) (hok' : m'.OK P) (hfk : m.fk.Renumbered ρ m'.fk) {g : List ℕ × List ℕ} (hg : g ∈ m.fk.activeDims) {ad : List ℕ}
    (hg' : (ad, g.2) ∈ m'.fk.activeDims) : m'.fk.extraOf (ad, g.2) = m.fk.extraOf g := by
  have hQ : m'.fk.Q = m.fk.Q := hfk.count
  have hS : ∀ q, m'.fk.IsSlfm q ↔ m.fk.IsSlfm q := fun q => by unfold FK.IsSlfm; rw [hfk.lmc, hfk.slfm]
  have hI : ∀ q, m'.fk.IsIndep q ↔ m.fk.IsIndep q := fun q => by unfold FK.IsIndep; rw [hfk.lmc, hfk.slfm]
  have hR : m'.fk.rankOf (ad, g.2) = m.fk.rankOf g := by
    unfold FK.rankOf
    rw [hfk.vecs, hfk.lmc, hfk.slfm]
  have hA : m'.fk.apart (ad, g.2) = m.fk.apart g := by
    unfold FK.apart
    rw [hR, hfk.D]
    by_cases h : ∀ q ∈ g.2, m.fk.IsSlfm q
    · rw [if_pos h, if_pos fun q hq => (hS q).2 (h q hq)]
    · rw [if_neg h, if_neg fun h' => h fun q hq => (hS q).1 (h' q hq)]
  have : Spoiled m'.fk (ad, g.2) ↔ Spoiled m.fk g := by
    unfold Spoiled
    rw [chooseKType_eq hok.groups hg, show chooseKType m'.fk ad = _ from chooseKType_eq hok'.groups hg', hA, hQ, hfk.D]
    simp only [hS, hI]
  unfold FK.extraOf
  by_cases hS : Spoiled m.fk g
  · rw [if_pos hS, if_pos (this.2 hS)]
  · rw [if_neg hS, if_neg fun h => hS (this.1 h)]

/-- made from the same points with their coordinates in another order, the model states the same problem -/
theorem renumbered_isomorphic {P : ℕ} {ρ : ℕ → ℕ} (hρ : Permutes P ρ) {a a' : LLGPArgs} (hr : a.Renumbered P ρ a') {m m' : LLGP} (hok : m.OK P) (hok' : m'.OK P)
    (hmode : m'.prediction = m.prediction) (hfk : m.fk.Renumbered ρ m'.fk) (ha : m.MadeFrom P a) (ha' : m'.MadeFrom P a') :
    ∃ τ, Isomorphic P id (SamePoint P ρ) (renumber ρ) τ m m' ∧ m'.gp.Xs.map Arr2.rows = m.gp.Xs.map Arr2.rows ∧
      ∀ r < (m.gp.Xs.map Arr2.rows).sum, ∀ q < (m.gp.Xs.map Arr2.rows).sum, m'.fk.fullCov m'.gp.Xs r q = m.fk.fullCov m.gp.Xs r q := by
  have hso := made_sorted ha
  have hso' := made_sorted ha'
  obtain ⟨x1, n1, y1⟩ := MadeFrom.scale ha
  obtain ⟨x2, n2, y2⟩ := MadeFrom.scale ha'
  obtain ⟨fk0, m0, hd, hi, g1, g2, g3⟩ := ha
  obtain ⟨fk0', m0', hd', hi', g1', g2', g3'⟩ := ha'
  obtain ⟨-, -, -, -, f3⟩ := documented_fields hd hi
  obtain ⟨-, -, -, -, f3'⟩ := documented_fields hd' hi'
  have hQ : m'.fk.Q = m.fk.Q := hfk.count
  have hlen : a'.Xs.length = a.Xs.length := hr.Xs.length_eq.symm
  have hY : a'.Ys = a.Ys := by rw [hr.same]
  have hno : a'.normalize = a.normalize := by rw [hr.same]
  have hsc : ∀ d, a'.scaleOf d = a.scaleOf d ∧ a'.centreOf d = a.centreOf d := fun d => by
    unfold LLGPArgs.scaleOf LLGPArgs.centreOf
    rw [hno, hY]
    exact ⟨rfl, rfl⟩
  have hDX : m.fk.D = a.Xs.length := by
    rw [← hok.data.inputs.len, x1]
    unfold padded
    rw [List.length_map]
  have hkb : ∀ q < m.fk.Q, (∀ c ∈ m.fk.kdims q, c < P) ∧ (m.fk.kdims q).Pairwise (· ≤ ·) := fun q hq => by
    have := (kdims_of hok hq).2
    refine ⟨fun c hc => hok.ready.bound _ this c hc, ?_⟩
    obtain ⟨g, hg, e⟩ := List.mem_map.1 this
    rw [← e]
    exact hso g hg
  have hkd : ∀ q < m.fk.Q, m'.fk.kdims q = renumber ρ (m.fk.kdims q) := fun q hq => by
    have := (kdims_of hok' (by rw [hQ]; exact hq)).2
    obtain ⟨g, hg, e⟩ := List.mem_map.1 this
    exact sorted_eq (by rw [← e]; exact hso' g hg) (renumber_sorted _ _) ((hfk.dims q hq).trans (renumber_perm _ _).symm)
  have hgb : ∀ g ∈ m.fk.activeDims, ∀ c ∈ g.1, c < P := fun g hg => hok.ready.bound g.1 (List.mem_map_of_mem hg)
  have hread : ∀ g ∈ m.fk.activeDims, m'.fk.readers (renumber ρ g.1) = m.fk.readers g.1 := fun g hg => by
    unfold FK.readers
    rw [hQ]
    refine List.filter_congr fun q hq => ?_
    have hq := List.mem_range.1 hq
    rw [hkd q hq]
    have : renumber ρ (m.fk.kdims q) = renumber ρ g.1 ↔ m.fk.kdims q = g.1 :=
      ⟨renumber_inj hρ (hkb q hq).1 (hgb g hg) (hkb q hq).2 (hso g hg), fun e => by rw [e]⟩
    simp only [this]
  have hmem : ∀ g ∈ m.fk.activeDims, (renumber ρ g.1, g.2) ∈ m'.fk.activeDims := fun g hg => by
    obtain ⟨h1, h2⟩ := group_readers hok hg
    exact (mem_groups hok' _).2 ⟨by rw [hread g hg]; exact h1, h2⟩
  have hperm : m'.fk.activeDims.Perm (m.fk.activeDims.map fun g => (renumber ρ g.1, g.2)) := by
    have n1 : m'.fk.activeDims.Nodup := List.Nodup.of_map Prod.fst hok'.groups.nodup
    have n2 : m.fk.activeDims.Nodup := List.Nodup.of_map Prod.fst hok.groups.nodup
    refine (List.perm_ext_iff_of_nodup n1 (List.Nodup.map_on (fun g hg g' hg' e => ?_) n2)).2 fun g' => ?_
    · have e1 := renumber_inj hρ (hgb g hg) (hgb g' hg') (hso g hg) (hso g' hg') (congrArg Prod.fst e)
      exact Prod.ext e1 (show (renumber ρ g.1, g.2).2 = (renumber ρ g'.1, g'.2).2 by rw [e])
    · constructor
      · intro hg'
        obtain ⟨h1, h2⟩ := group_readers hok' hg'
        obtain ⟨q, hq⟩ := List.exists_mem_of_ne_nil _ h2
        rw [h1, mem_readers, hQ] at hq
        obtain ⟨g, hg, e⟩ := List.mem_map.1 (kdims_of hok hq.1).2
        have e' : g'.1 = renumber ρ g.1 := by rw [← hq.2, hkd q hq.1, e]
        refine List.mem_map.2 ⟨g, hg, Prod.ext e'.symm ?_⟩
        rw [h1, e', hread g hg]
        exact (group_readers hok hg).1
      · intro hg'
        obtain ⟨g, hg, rfl⟩ := List.mem_map.1 hg'
        exact hmem g hg
  -- the grids
  have hax : ∀ g ∈ m.fk.activeDims, (renumber ρ g.1 = g.1.map ρ ∧ m'.axesOf (renumber ρ g.1) = m.axesOf g.1 ∧ (m.axesOf g.1).length = g.1.length) ∨
      (renumber ρ g.1 ≠ g.1.map ρ ∧ ∃ c d A B, g.1 = [c, d] ∧ renumber ρ g.1 = [ρ d, ρ c] ∧ m.axesOf g.1 = [A, B] ∧ m'.axesOf (renumber ρ g.1) = [B, A]) := fun g hg => by
    have k1 : g.1 ∈ m0.fk.activeDims.map Prod.fst := by rw [← g3]; exact List.mem_map_of_mem hg
    have k2 : renumber ρ g.1 ∈ m0'.fk.activeDims.map Prod.fst := by rw [← g3']; exact List.mem_map_of_mem (hmem g hg)
    obtain ⟨G, q1, q2⟩ := generateGrids_get f3 _ k1
    obtain ⟨G', q1', q2'⟩ := generateGrids_get f3' _ k2
    rw [← g1', x2] at q1'
    rw [← g1, x1] at q1
    have e1 : m.axesOf g.1 = G.axes := by unfold LLGP.axesOf; rw [g2, q2]; rfl
    have e2 : m'.axesOf (renumber ρ g.1) = G'.axes := by unfold LLGP.axesOf; rw [g2', q2']; rfl
    rw [← g2] at q2
    have hG := hok.grid _ ((mem_iff_dictGet (by rw [hok.keys]; exact hok.groups.nodup) _ _).2 q2)
    have hG1 : G.axes.length = g.1.length := hG.axes
    rw [e1, e2]
    by_cases hsame : renumber ρ g.1 = g.1.map ρ
    · left
      refine ⟨hsame, ?_, hG1⟩
      rw [hsame, generateGrid_ren hρ (ren_padded hr.Xs) hr.lo hr.hi hr.m (hgb g hg), q1] at q1'
      rw [Except.ok.inj q1']
    · right
      obtain ⟨c, d, h1, h2⟩ := (renumber_pair ρ g.1 hG.dim).resolve_left hsame
      have hb := hgb g hg
      rw [h1] at hb hG1 q1
      rw [h2, generateGrid_ren hρ (ren_padded hr.Xs) hr.lo hr.hi hr.m (fun x hx => hb x (by simp only [List.mem_cons, List.not_mem_nil, or_false] at hx ⊢; tauto))] at q1'
      obtain ⟨A, B, hAB⟩ := List.length_eq_two.1 (show G.axes.length = 2 from hG1)
      refine ⟨hsame, c, d, A, B, h1, h2, hAB, ?_⟩
      rw [generateGrid_flipped q1 q1', hAB]
      rfl
  have hl : m'.gp.Xs.map Arr2.rows = m.gp.Xs.map Arr2.rows := by rw [x1, x2, padded_lens, padded_lens, ren_lens hr.Xs]
  have hYs : m'.gp.Ys = m.gp.Ys := by
    rw [y1, y2, hY]
    simp only [fun d => (hsc d).1, fun d => (hsc d).2]
  have hsum : (m.gp.Xs.map Arr2.rows).sum = (m'.gp.Xs.map Arr2.rows).sum := by rw [hl]
  have hrows : ∀ r : Fin (m.gp.Xs.map Arr2.rows).sum, ownerOf (m'.gp.Xs.map Arr2.rows) (finCongr hsum r) = id (ownerOf (m.gp.Xs.map Arr2.rows) r) ∧
      SamePoint P ρ (rowPoint m.gp.Xs r) (rowPoint m'.gp.Xs (finCongr hsum r)) ∧ m.gp.Ys.flatten.getD r 0 = m'.gp.Ys.flatten.getD (finCongr hsum r) 0 := by
    refine fun r => ⟨?_, ?_, ?_⟩
    · show ownerOf _ (r : ℕ) = _
      rw [hl]
      rfl
    · obtain ⟨r, hr'⟩ := r
      show SamePoint P _ (rowPoint m.gp.Xs r) (rowPoint m'.gp.Xs r)
      have ho := ownerOf_lt _ _ hr'
      obtain ⟨-, o2⟩ := offset_owner hr'
      rw [List.length_map, hok.data.inputs.len, hDX] at ho
      unfold rowPoint
      rw [hl]
      generalize ownerOf (m.gp.Xs.map Arr2.rows) r = d at ho o2 ⊢
      generalize innerIdx (m.gp.Xs.map Arr2.rows) r = i at o2 ⊢
      rw [x1, padded_lens] at o2
      rw [x1, x2, pointOf_padded ho, pointOf_padded (by rw [hlen]; exact ho)]
      exact ren_point hr.Xs ho o2
    · show _ = m'.gp.Ys.flatten.getD (r : ℕ) 0
      rw [hYs]
  have R : Isomorphic P id (SamePoint P ρ) (renumber ρ) (fun ad p => if renumber ρ ad = ad.map ρ then p else flipIdx (m.axesOf ad) p) m m' := by
    refine ⟨hok, hok', hmode, hfk.D, hQ, hperm, fun g hg => renumber_full hρ (hgb g hg) (hso g hg), fun g hg hn => ?_, fun a ha => ha, fun a _ b _ h => h, fun q _ a _ b _ => ?_,
      fun a _ => by rw [hfk.noise]; rfl, fun g hg => renumbered_extra hok hok' hfk hg (hmem g hg), fun g hg => ?_, fun g hg => ?_,
      fun g hg x x' hx p hp => ?_, fun g hg k hk p hp q hq => ?_, fun q hq x x' z z' hx hz => ?_, fun d hd => ?_, finCongr hsum, hrows⟩
    · rw [(renumber_perm ρ g.1).nodup_iff]
      exact List.Nodup.map_on (fun a ha b hb h => hρ.2 a (hgb g hg a ha) b (hgb g hg b hb) h) hn
    · unfold FK.B
      rw [hfk.vecs, hfk.diags]
      rfl
    · rcases hax g hg with ⟨-, h2, -⟩ | ⟨-, c, d, A, B, -, -, h3, h4⟩
      · rw [h2]
      · rw [h3, h4, flip_size]
    · rcases hax g hg with ⟨h1, h2, -⟩ | ⟨h1, c, d, A, B, -, -, h3, h4⟩
      · simp only [h1, if_true]
        exact Set.bijOn_id _
      · simp only [h1, if_false]
        rw [h3]
        exact flipIdx_bij A B
    · rcases hax g hg with ⟨h1, h2, h3⟩ | ⟨h1, c, d, A, B, h2, h5, h3, h4⟩
      · simp only [h1, if_true]
        rw [← h1, h2]
        refine gridWeight_congr _ p fun k hk => ?_
        rw [h3] at hk
        unfold coords
        rw [h1, map_getD_lt hk _ _ 0]
        exact hx _ (hgb g hg _ (getD_mem_of_lt hk 0))
      · simp only [h1, if_false]
        rw [h4, h3]
        rw [h3] at hp
        have hb := hgb g hg
        rw [h2] at hb
        refine gridWeight_flip ?_ ?_ hp
        · unfold coords
          rw [h5, h2]
          exact hx d (hb d (by simp))
        · unfold coords
          rw [h5, h2]
          exact hx c (hb c (by simp))
    · rw [doc_of_same (hfk.kernel k ((hok.groups.group g hg).2.2 k hk))]
      rcases hax g hg with ⟨h1, h2, h3⟩ | ⟨h1, c, d, A, B, h2, h5, h3, h4⟩
      · simp only [h1, if_true]
        rw [← h1, h2]
      · simp only [h1, if_false]
        rw [h4, h3]
        rw [h3] at hp hq
        rw [gridDistance_flip hp hq]
    · rw [doc_of_same (hfk.kernel q hq), hkd q hq]
      congr 1
      unfold distOn
      rw [((renumber_perm ρ (m.fk.kdims q)).map _).sum_eq, List.map_map]
      refine congrArg (fun l => Real.sqrt (List.sum l)) (List.map_congr_left fun c hc => ?_)
      simp only [Function.comp]
      rw [hx c ((hkb q hq).1 c hc), hz c ((hkb q hq).1 c hc)]
    · rw [hDX] at hd
      show normOf m'.gp d = _
      rw [(n1 d hd).1, (n2 d (by rw [hlen]; exact hd)).1, (hsc d).1, (hsc d).2]
  refine ⟨_, R, hl, fun r hr q hq => ?_⟩
  exact (R.covMat hrows ⟨r, hr⟩ ⟨q, hq⟩).symm

end Verif
