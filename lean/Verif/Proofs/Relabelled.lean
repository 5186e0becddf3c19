import Verif.Spec.Relabelled
import Verif.Proofs.Stretched
import Verif.Proofs.MadeFrom
import Mathlib.Data.List.FinRange

/-! Listing the outputs in another order. -/

namespace Verif

/-! ### lists -/

theorem RelabelledList.getD {α : Type} {D : ℕ} {π : ℕ → ℕ} {l l' : List α} (h : RelabelledList D π l l') (x : α) {d : ℕ} (hd : d < D) : l'.getD (π d) x = l.getD d x := by
  rw [List.getD_eq_getElem?_getD, List.getD_eq_getElem?_getD, h.2.2 d hd]

theorem relabelledList_of {α : Type} {D : ℕ} {π : ℕ → ℕ} (hp : Permutes D π) {l l' : List α} (h1 : l.length = D) (h2 : l'.length = D) (x : α)
    (h : ∀ d < D, l'.getD (π d) x = l.getD d x) : RelabelledList D π l l' := by
  refine ⟨h1, h2, fun d hd => ?_⟩
  have := h d hd
  rw [List.getD_eq_getElem _ _ (by rw [h2]; exact hp.1 d hd), List.getD_eq_getElem _ _ (by rw [h1]; exact hd)] at this
  rw [List.getElem?_eq_getElem (by rw [h2]; exact hp.1 d hd), List.getElem?_eq_getElem (by rw [h1]; exact hd), this]

/-- the permutation of `Fin D` -/
noncomputable def Permutes.equiv {D : ℕ} {π : ℕ → ℕ} (h : Permutes D π) : Fin D ≃ Fin D :=
  Equiv.ofBijective (fun d => ⟨π d, h.1 d d.2⟩) (Finite.injective_iff_bijective.1 fun a b hab => Fin.ext (h.2 a a.2 b b.2 (congrArg Fin.val hab)))

theorem RelabelledList.perm {α : Type} {D : ℕ} {π : ℕ → ℕ} {l l' : List α} (hp : Permutes D π) (h : RelabelledList D π l l') : l.Perm l' := by
  obtain ⟨h1, h2, h3⟩ := h
  subst h1
  have e : l = List.ofFn ((fun d : Fin l.length => l'[d]'(by rw [h2]; exact d.2)) ∘ hp.equiv) := by
    refine List.ext_getElem (by simp) fun d hd hd' => ?_
    have := h3 d hd
    rw [List.getElem?_eq_getElem hd, List.getElem?_eq_getElem (by rw [h2]; exact hp.1 d hd)] at this
    rw [List.getElem_ofFn]
    exact (Option.some.inj this).symm
  have e' : l' = List.ofFn (fun d : Fin l.length => l'[d]'(by rw [h2]; exact d.2)) := by
    refine List.ext_getElem (by simp [h2]) fun d hd hd' => ?_
    rw [List.getElem_ofFn]
    rfl
  have hpm := Equiv.Perm.ofFn_comp_perm hp.equiv (fun d : Fin l.length => l'[d]'(by rw [h2]; exact d.2))
  rw [← e, ← e'] at hpm
  exact hpm

theorem relabelledList_map {α β : Type} {D : ℕ} {π : ℕ → ℕ} {l l' : List α} (h : RelabelledList D π l l') (f : α → β) : RelabelledList D π (l.map f) (l'.map f) :=
  ⟨by rw [List.length_map]; exact h.1, by rw [List.length_map]; exact h.2.1, fun d hd => by rw [List.getElem?_map, List.getElem?_map, h.2.2 d hd]⟩

/-! ### the grid generator -/

theorem mapExcept_ok_iff {α β : Type} {f : α → Except PyErr β} : ∀ {l : List α}, (∃ r, mapExcept f l = .ok r) ↔ ∀ x ∈ l, ∃ y, f x = .ok y
  | [] => ⟨(fun _ x hx => by cases hx), fun _ => ⟨[], rfl⟩⟩
  | a :: l => by
    simp only [mapExcept, bind_ok, pure_ok, List.forall_mem_cons, ← mapExcept_ok_iff (l := l)]
    constructor
    · rintro ⟨r, y, hy, ys, hys, -⟩
      exact ⟨⟨y, hy⟩, ys, hys⟩
    · rintro ⟨⟨y, hy⟩, ys, hys⟩
      exact ⟨_, y, hy, ys, hys, rfl⟩

theorem mapExcept_of_perm {α β : Type} {f : α → Except PyErr β} {l l' : List α} (h : l.Perm l') : ∀ {r r' : List β}, mapExcept f l = .ok r → mapExcept f l' = .ok r' → r.Perm r' := by
  induction h with
  | nil =>
    intro r r' h1 h2
    rw [h1] at h2
    cases h2
    exact .refl _
  | @cons x l l' _ ih =>
    intro r r' h1 h2
    simp only [mapExcept, bind_ok, pure_ok] at h1 h2
    obtain ⟨y, hy, ys, hys, rfl⟩ := h1
    obtain ⟨y', hy', ys', hys', rfl⟩ := h2
    rw [hy] at hy'
    cases hy'
    exact (ih hys hys').cons y
  | swap x y l =>
    intro r r' h1 h2
    simp only [mapExcept, bind_ok, pure_ok] at h1 h2
    obtain ⟨a, ha, _, ⟨b, hb, c, hc, rfl⟩, rfl⟩ := h1
    obtain ⟨b', hb', _, ⟨a', ha', c', hc', rfl⟩, rfl⟩ := h2
    rw [ha] at ha'; cases ha'
    rw [hb] at hb'; cases hb'
    rw [hc] at hc'; cases hc'
    exact .swap _ _ _
  | @trans l1 l2 l3 h12 _ ih1 ih2 =>
    intro r r' h1 h2
    have : ∃ r2, mapExcept f l2 = .ok r2 := mapExcept_ok_iff.2 fun x hx => mapExcept_ok_iff.1 ⟨r, h1⟩ x (h12.mem_iff.2 hx)
    obtain ⟨r2, hr2⟩ := this
    exact (ih1 h1 hr2).trans (ih2 hr2 h2)

theorem zip2_comm {f : ℝ → ℝ → ℝ} (h : ∀ x y, f x y = f y x) (a b : List ℝ) : zip2 f a b = zip2 f b a := by
  unfold zip2
  rw [List.zipWith_comm]
  exact congrArg (fun g => List.zipWith g b a) (funext fun x => funext fun y => h _ _)

theorem zip2_assoc {f : ℝ → ℝ → ℝ} (h : ∀ x y z, f (f x y) z = f x (f y z)) : ∀ a b c : List ℝ, zip2 f (zip2 f a b) c = zip2 f a (zip2 f b c)
  | [], _, _ => rfl
  | _ :: _, [], _ => rfl
  | _ :: _, _ :: _, [] => rfl
  | x :: a, y :: b, z :: c => by
    show _ :: zip2 f (zip2 f a b) c = _ :: zip2 f a (zip2 f b c)
    rw [h, zip2_assoc h a b c]

/-- the smallest (largest) of some vectors, in any order -/
theorem fold_of_perm {f : ℝ → ℝ → ℝ} (hc : ∀ x y, f x y = f y x) (ha : ∀ x y z, f (f x y) z = f x (f y z)) {l l' : List (List ℝ)} (h : l.Perm l') :
    l.tail.foldl (zip2 f) (l.headD []) = l'.tail.foldl (zip2 f) (l'.headD []) := by
  have : Std.Commutative (zip2 f) := ⟨zip2_comm hc⟩
  have : Std.Associative (zip2 f) := ⟨zip2_assoc ha⟩
  induction h with
  | nil => rfl
  | cons x h _ => exact h.foldl_op_eq
  | swap x y l =>
    show l.foldl (zip2 f) (zip2 f y x) = l.foldl (zip2 f) (zip2 f x y)
    rw [zip2_comm hc]
  | trans _ _ h1 h2 => exact h1.trans h2

theorem autogrid_relabelled {Xs Xs' : List (Arr2 ℝ)} (h : Xs.Perm Xs') {p : ℕ} (hp : ∀ X ∈ Xs, X.cols = p) {lo hi m : GridArg} {g g' : AutogridResult}
    (hg : autogrid Xs lo hi m = .ok g) (hg' : autogrid Xs' lo hi m = .ok g') : g'.grids = g.grids := by
  have hsum : (Xs'.map Arr2.rows).sum = (Xs.map Arr2.rows).sum := ((h.map _).sum_eq).symm
  have hlen : Xs'.length = Xs.length := h.length_eq.symm
  have hp' : ∀ X ∈ Xs', X.cols = p := fun X hX => hp X (h.mem_iff.2 hX)
  cases Xs with
  | nil => cases hg
  | cons X0 Xs =>
    cases Xs' with
    | nil => cases hg'
    | cons X0' Xs' =>
      have e : X0'.cols = X0.cols := (hp' _ List.mem_cons_self).trans (hp _ List.mem_cons_self).symm
      unfold autogrid at hg hg'
      simp only [hsum, hlen] at hg hg'
      generalize X0'.cols = p' at hg' e
      subst e
      by_cases c1 : lo.fits X0.cols
      swap
      · rw [if_pos c1] at hg; cases hg
      by_cases c2 : hi.fits X0.cols
      swap
      · rw [if_neg (not_not.2 c1), if_pos c2] at hg; cases hg
      by_cases c3 : m.fits X0.cols
      swap
      · rw [if_neg (not_not.2 c1), if_neg (not_not.2 c2), if_pos c3] at hg; cases hg
      rw [if_neg (not_not.2 c1), if_neg (not_not.2 c2), if_neg (not_not.2 c3), bind_ok] at hg hg'
      obtain ⟨mins, q1, hg⟩ := hg
      obtain ⟨mins', q1', hg'⟩ := hg'
      rw [bind_ok] at hg hg'
      obtain ⟨maxs, q2, hg⟩ := hg
      obtain ⟨maxs', q2', hg'⟩ := hg'
      rw [← fold_of_perm (f := min) min_comm min_assoc (mapExcept_of_perm h q1 q1'), ← fold_of_perm (f := max) max_comm max_assoc (mapExcept_of_perm h q2 q2')] at hg'
      rw [hg] at hg'
      cases hg'
      rfl

theorem generateGrid_relabelled {Xs Xs' : List (Arr2 ℝ)} (h : Xs.Perm Xs') {lo hi m : GridOpt} {ad : List ℕ} {g g' : GroupGrid}
    (hg : generateGrid Xs lo hi m ad = .ok g) (hg' : generateGrid Xs' lo hi m ad = .ok g') : g'.axes = g.axes := by
  unfold generateGrid at hg hg'
  simp only [bind_ok, pure_ok] at hg hg'
  obtain ⟨a1, b1, a2, b2, a3, b3, Xa, b4, G, b5, d, -, W, -, rfl⟩ := hg
  obtain ⟨a1', b1', a2', b2', a3', b3', Xa', b4', G', b5', d', -, W', -, rfl⟩ := hg'
  rw [b1] at b1'; cases b1'
  rw [b2] at b2'; cases b2'
  rw [b3] at b3'; cases b3'
  refine autogrid_relabelled (mapExcept_of_perm h b4 b4') (p := ad.length) (fun X hX => ?_) b5 b5'
  obtain ⟨Y, -, hY⟩ := mapExcept_mem b4 X hX
  unfold takeCols at hY
  split at hY
  · cases hY
    rfl
  · cases hY

/-! ### rows -/

theorem relabelled_rows {D : ℕ} {π : ℕ → ℕ} (hp : Permutes D π) {lens lens' : List ℕ} (h : RelabelledList D π lens lens') :
    ∃ σ : Fin lens.sum ≃ Fin lens'.sum, ∀ r, (σ r : ℕ) = offset lens' (π (ownerOf lens r)) + innerIdx lens r := by
  have key : ∀ r : Fin lens.sum, π (ownerOf lens r) < lens'.length ∧ innerIdx lens r < lens'.getD (π (ownerOf lens r)) 0 := fun r => by
    have ho := ownerOf_lt lens r r.2
    rw [h.1] at ho
    rw [h.2.1, h.getD 0 ho]
    exact ⟨hp.1 _ ho, (offset_owner r.2).2⟩
  let f : Fin lens.sum → Fin lens'.sum := fun r => ⟨offset lens' (π (ownerOf lens r)) + innerIdx lens r, (ownerOf_offset (key r).1 (key r).2).2.1⟩
  have hinj : Function.Injective f := fun r s hrs => by
    have e : offset lens' (π (ownerOf lens r)) + innerIdx lens r = offset lens' (π (ownerOf lens s)) + innerIdx lens s := congrArg Fin.val hrs
    obtain ⟨a1, -, a3⟩ := ownerOf_offset (key r).1 (key r).2
    obtain ⟨b1, -, b3⟩ := ownerOf_offset (key s).1 (key s).2
    rw [e] at a1 a3
    have h1 : ownerOf lens r = ownerOf lens s := hp.2 _ (by rw [← h.1]; exact ownerOf_lt lens r r.2) _ (by rw [← h.1]; exact ownerOf_lt lens s s.2) (a1.symm.trans b1)
    have h2 : innerIdx lens r = innerIdx lens s := a3.symm.trans b3
    refine Fin.ext ?_
    rw [← (offset_owner r.2).1, ← (offset_owner s.2).1, h1, h2]
  have hsum : lens.sum = lens'.sum := (h.perm hp).sum_eq
  exact ⟨Equiv.ofBijective f ((Fintype.bijective_iff_injective_and_card f).2 ⟨hinj, by simp [hsum]⟩), fun r => rfl⟩

/-! ### models -/

theorem relabelled_B {π : ℕ → ℕ} {fk fk' : FK} (hp : Permutes fk.D π) (h : fk.Relabelled π fk') {q a b : ℕ} (hq : q < fk.Q) (ha : a < fk.D) (hb : b < fk.D) :
    fk'.B q (π a) (π b) = fk.B q a b := by
  obtain ⟨h1, h2⟩ := h.vecs q hq
  unfold FK.B
  rw [h1]
  congr 1
  · refine Finset.sum_congr rfl fun r hr => ?_
    rw [h2 r (Finset.mem_range.1 hr) a ha, h2 r (Finset.mem_range.1 hr) b hb]
  · by_cases e : a = b
    · rw [if_pos e, if_pos (congrArg π e), (h.diags q hq).getD 0 ha]
    · rw [if_neg e, if_neg fun h => e (hp.2 a ha b hb h)]

theorem relabelled_extra {π : ℕ → ℕ} {fk fk' : FK} (h : fk.Relabelled π fk') (hg : fk.GroupsOK) {g : List ℕ × List ℕ} (hm : g ∈ fk.activeDims) : fk'.extraOf g = fk.extraOf g := by
  have hQ : fk'.Q = fk.Q := by unfold FK.Q; rw [h.same]
  have hr : fk'.totalRank g.1 = fk.totalRank g.1 := by
    unfold FK.totalRank
    have h1 : fk'.assertP = fk.assertP := by rw [h.same]; rfl
    have h2 : fk'.activeDims = fk.activeDims := by rw [h.same]
    have h3 : fk'.numLmcTotal = fk.numLmcTotal := by rw [h.same]
    have h4 : fk'.numSlfmTotal = fk.numSlfmTotal := by rw [h.same]
    rw [h1, h2, h3, h4]
    refine congrArg _ (funext fun _ => ?_)
    have hd : dictGet fk.activeDims g.1 = some g.2 := (mem_iff_dictGet hg.nodup _ _).1 hm
    unfold dictIdx
    rw [hd]
    refine congrArg Except.ok ?_
    have : ∀ (l : List ℕ), (∀ q ∈ l, q < fk.Q) → ∀ n, l.foldl (fun r q => if q < fk.numLmcTotal + fk.numSlfmTotal then r + (fk'.coregVecs.getD q ⟨0, 0, []⟩).rows else r) n =
        l.foldl (fun r q => if q < fk.numLmcTotal + fk.numSlfmTotal then r + (fk.coregVecs.getD q ⟨0, 0, []⟩).rows else r) n := by
      intro l hl
      induction l with
      | nil => exact fun _ => rfl
      | cons q l ih =>
        intro n
        rw [List.foldl_cons, List.foldl_cons, (h.vecs q (hl q List.mem_cons_self)).1]
        exact ih (fun q hq => hl q (List.mem_cons_of_mem _ hq)) _
    exact this g.2 (hg.group g hm).2.2 0
  have : Spoiled fk' g ↔ Spoiled fk g := by
    have e : chooseKType fk' g.1 = chooseKType fk g.1 := by
      unfold chooseKType
      rw [hQ, hr, h.same]
    unfold Spoiled
    rw [e, h.same]
    rfl
  unfold FK.extraOf
  by_cases hS : Spoiled fk g
  · rw [if_pos hS, if_pos (this.2 hS)]
  · rw [if_neg hS, if_neg fun h => hS (this.1 h)]

theorem relabelled_sound {π : ℕ → ℕ} {fk fk' : FK} (hp : Permutes fk.D π) (h : fk.Relabelled π fk') (hso : fk.Sound) : fk'.Sound := by
  have hD : fk'.D = fk.D := by rw [h.same]
  have hQ : fk'.Q = fk.Q := by unfold FK.Q; rw [h.same]
  have hk : fk'.kernels = fk.kernels := by rw [h.same]
  have onto : ∀ d < fk.D, ∃ a < fk.D, π a = d := fun d hd => by
    obtain ⟨a, ha⟩ := hp.equiv.surjective ⟨d, hd⟩
    exact ⟨a, a.2, congrArg Fin.val ha⟩
  refine ⟨fun q hq => ?_, fun k hk' => hso.plain k (by rw [← hk]; exact hk'), fun q hq d hd => ?_, fun d hd => ?_⟩
  · have := hso.kernels q (by rw [← hQ]; exact hq)
    unfold FK.KernelPSD FK.kdims at this ⊢
    rw [hk]
    exact this
  · obtain ⟨a, ha, rfl⟩ := onto d (by rw [← hD]; exact hd)
    rw [(h.diags q (by rw [← hQ]; exact hq)).getD 0 ha]
    exact hso.kappa q (by rw [← hQ]; exact hq) a ha
  · obtain ⟨a, ha, rfl⟩ := onto d (by rw [← hD]; exact hd)
    rw [h.noise.getD 0 ha]
    exact hso.noise a ha

theorem relabelled_lens {P D : ℕ} {π : ℕ → ℕ} {Xs Xs' : List (NDArr ℝ)} (h : RelabelledList D π Xs Xs') : RelabelledList D π ((padded P Xs).map Arr2.rows) ((padded P Xs').map Arr2.rows) :=
  relabelledList_map (relabelledList_map h _) _

/-- made from data with the outputs in another order, the model states the same problem -/
theorem relabelled_isomorphic {π : ℕ → ℕ} {P : ℕ} {a a' : LLGPArgs} (hp : Permutes a.Xs.length π) (hr : a.Relabelled π a') {m m' : LLGP} (hok : m.OK P) (hok' : m'.OK P)
    (hmode : m'.prediction = m.prediction) (hfk : m.fk.Relabelled π m'.fk) (ha : m.MadeFrom P a) (ha' : m'.MadeFrom P a') :
    Isomorphic P π (Corr P fun _ x => x) id (fun _ => id) m m' ∧ RelabelledList m.fk.D π (m.gp.Xs.map Arr2.rows) (m'.gp.Xs.map Arr2.rows) ∧
      ∀ d < m.fk.D, ∀ t < m.fk.D, ∀ i < (m.gp.Xs.map Arr2.rows).getD d 0, ∀ j < (m.gp.Xs.map Arr2.rows).getD t 0,
        m'.fk.fullCov m'.gp.Xs (offset (m'.gp.Xs.map Arr2.rows) (π d) + i) (offset (m'.gp.Xs.map Arr2.rows) (π t) + j) =
          m.fk.fullCov m.gp.Xs (offset (m.gp.Xs.map Arr2.rows) d + i) (offset (m.gp.Xs.map Arr2.rows) t + j) := by
  obtain ⟨x1, n1, y1⟩ := MadeFrom.scale ha
  obtain ⟨x2, n2, y2⟩ := MadeFrom.scale ha'
  have yg := @ys_getD a m P ha
  have yg' := @ys_getD a' m' P ha'
  obtain ⟨fk0, m0, hd, hi, g1, g2, g3⟩ := ha
  obtain ⟨fk0', m0', hd', hi', g1', g2', g3'⟩ := ha'
  obtain ⟨-, -, -, -, f3⟩ := documented_fields hd hi
  obtain ⟨-, -, -, -, f3'⟩ := documented_fields hd' hi'
  have hD : m'.fk.D = m.fk.D := by rw [hfk.same]
  have hQ : m'.fk.Q = m.fk.Q := by unfold FK.Q; rw [hfk.same]
  have had : m'.fk.activeDims = m.fk.activeDims := by rw [hfk.same]
  have hker : m'.fk.kernels = m.fk.kernels := by rw [hfk.same]
  have hno : a'.normalize = a.normalize := by rw [hr.same]
  have hmm : a'.m = a.m := by rw [hr.same]
  have hlo : a'.lo = a.lo := by rw [hr.same]
  have hhi : a'.hi = a.hi := by rw [hr.same]
  have hDX : m.fk.D = a.Xs.length := by
    rw [← hok.data.inputs.len, x1]
    unfold padded
    rw [List.length_map]
  have hYl : a.Ys.length = a.Xs.length := hr.Ys.1
  have hsc : ∀ d < a.Xs.length, a'.scaleOf (π d) = a.scaleOf d ∧ a'.centreOf (π d) = a.centreOf d := fun d hd => by
    unfold LLGPArgs.scaleOf LLGPArgs.centreOf
    rw [hno, hr.Ys.getD _ hd]
    exact ⟨rfl, rfl⟩
  have hpad : RelabelledList a.Xs.length π m.gp.Xs m'.gp.Xs := by
    rw [x1, x2]
    exact relabelledList_map hr.Xs _
  have hlens : RelabelledList a.Xs.length π (m.gp.Xs.map Arr2.rows) (m'.gp.Xs.map Arr2.rows) := relabelledList_map hpad _
  have hax : ∀ g ∈ m.fk.activeDims, m'.axesOf g.1 = m.axesOf g.1 := fun g hg => by
    have k1 : g.1 ∈ m0.fk.activeDims.map Prod.fst := by rw [← g3]; exact List.mem_map_of_mem hg
    have k2 : g.1 ∈ m0'.fk.activeDims.map Prod.fst := by rw [← g3', had]; exact List.mem_map_of_mem hg
    obtain ⟨G, q1, q2⟩ := generateGrids_get f3 _ k1
    obtain ⟨G', q1', q2'⟩ := generateGrids_get f3' _ k2
    rw [← g1', hmm, hlo, hhi] at q1'
    rw [← g1] at q1
    have e1 : m.axesOf g.1 = G.axes := by unfold LLGP.axesOf; rw [g2, q2]; rfl
    have e2 : m'.axesOf g.1 = G'.axes := by unfold LLGP.axesOf; rw [g2', q2']; rfl
    rw [e1, e2, generateGrid_relabelled (hpad.perm hp) q1 q1']
  have haxl : ∀ g ∈ m.fk.activeDims, (m.axesOf g.1).length = g.1.length := fun g hg => by
    have k1 : g.1 ∈ m0.fk.activeDims.map Prod.fst := by rw [← g3]; exact List.mem_map_of_mem hg
    obtain ⟨G, q1, q2⟩ := generateGrids_get f3 _ k1
    have e1 : m.axesOf g.1 = G.axes := by unfold LLGP.axesOf; rw [g2, q2]; rfl
    rw [e1]
    rw [← g2] at q2
    exact (hok.grid _ ((mem_iff_dictGet (by rw [hok.keys]; exact hok.groups.nodup) _ _).2 q2)).axes
  have hbound : ∀ q < m.fk.Q, ∀ c ∈ m.fk.kdims q, c < P := fun q hq c hc => by
    obtain ⟨ad, e1, e2⟩ := hok.ready.dims _ (getD_mem_of_lt (l := m.fk.kernels) hq (.identity none))
    unfold FK.kdims at hc
    rw [e1] at hc
    exact hok.ready.bound ad e2 c hc
  have hkd : ∀ q, m'.fk.kdims q = m.fk.kdims q := fun q => by
    unfold FK.kdims
    rw [hker]
  obtain ⟨σ, hσ⟩ := relabelled_rows hp hlens
  have hrow : ∀ d < a.Xs.length, ∀ i < (m.gp.Xs.map Arr2.rows).getD d 0,
      i < (m'.gp.Xs.map Arr2.rows).getD (π d) 0 ∧ Corr P (fun _ x => x) (pointOf m.gp.Xs d i) (pointOf m'.gp.Xs (π d) i) ∧
        m.gp.Ys.flatten.getD (offset (m.gp.Xs.map Arr2.rows) d + i) 0 = m'.gp.Ys.flatten.getD (offset (m'.gp.Xs.map Arr2.rows) (π d) + i) 0 := fun d hd i hi => by
    have hi' : i < (m'.gp.Xs.map Arr2.rows).getD (π d) 0 := by rw [hlens.getD 0 hd]; exact hi
    have e : m'.gp.Ys.getD (π d) [] = m.gp.Ys.getD d [] := by
      rw [yg (by rw [hYl]; exact hd), yg' (by rw [hr.Ys.2.1]; exact hp.1 d hd), hr.Ys.getD _ hd, (hsc d hd).1, (hsc d hd).2]
    have hl : (m.gp.Ys.getD d []).length = (m.gp.Xs.map Arr2.rows).getD d 0 := by
      rw [← hok.data.lens, map_getD_lt (by rw [y1, List.length_mapIdx, hYl]; exact hd) _ _ []]
    refine ⟨hi', ?_, ?_⟩
    · intro c _
      unfold pointOf
      rw [hpad.getD _ hd]
    · unfold offset
      rw [← hok.data.lens, ← hok'.data.lens, flatten_getD _ _ (by rw [y1, List.length_mapIdx, hYl]; exact hd) (by rw [hl]; exact hi),
        flatten_getD _ _ (by rw [y2, List.length_mapIdx, hr.Ys.2.1]; exact hp.1 d hd) (by rw [e, hl]; exact hi), e]
  have hlX' : m'.gp.Xs.length = a.Xs.length := hpad.2.1
  have hrows : ∀ r, ownerOf (m'.gp.Xs.map Arr2.rows) (σ r) = π (ownerOf (m.gp.Xs.map Arr2.rows) r) ∧
      Corr P (fun _ x => x) (rowPoint m.gp.Xs r) (rowPoint m'.gp.Xs (σ r)) ∧ m.gp.Ys.flatten.getD r 0 = m'.gp.Ys.flatten.getD (σ r) 0 := fun r => by
    have ho := ownerOf_lt _ _ r.2
    rw [hlens.1] at ho
    obtain ⟨o1, o2⟩ := offset_owner r.2
    obtain ⟨q1, q2, q3⟩ := hrow _ ho _ o2
    obtain ⟨s1, -, s3⟩ := rowPoint_offset m'.gp.Xs (by rw [hlX']; exact hp.1 _ ho) q1
    rw [hσ r]
    refine ⟨s1, ?_, ?_⟩
    · rw [s3]
      exact q2
    · rw [← q3, o1]
  have R : Isomorphic P π (Corr P fun _ x => x) id (fun _ => id) m m' := by
    refine ⟨hok, hok', hmode, hD, hQ, by rw [had]; simp, fun _ _ => Iff.rfl, fun _ _ h => h, by rw [hDX]; exact hp.1, by rw [hDX]; exact hp.2, fun q hq a ha b hb => relabelled_B (by rw [hDX]; exact hp) hfk hq ha hb,
      fun a ha => hfk.noise.getD 0 ha, fun g hg => relabelled_extra hfk hok.groups hg, fun g hg => by rw [id, hax g hg], fun g hg => Set.bijOn_id _, fun g hg x x' hx p _ => ?_,
      fun g hg k _ p _ q _ => ?_,
      fun q hq x x' z z' hx hz => ?_, fun d hd => ?_, σ, hrows⟩
    · rw [id, hax g hg]
      refine gridWeight_congr _ p fun k hk => ?_
      rw [haxl g hg] at hk
      exact hx _ (hok.ready.bound g.1 (List.mem_map_of_mem hg) _ (getD_mem_of_lt hk 0))
    · rw [id, hax g hg, hker]
      rfl
    · rw [hkd q, hker]
      congr 1
      unfold distOn
      rw [List.map_congr_left fun c hc => by rw [hx c (hbound q hq c hc), hz c (hbound q hq c hc)]]
    · rw [hDX] at hd
      rw [(n1 d hd).1, (n2 (π d) (by rw [hr.Xs.2.1]; exact hp.1 d hd)).1, (hsc d hd).1, (hsc d hd).2]
  refine ⟨R, by rw [hDX]; exact hlens, fun d hd t ht i hi j hj => ?_⟩
  rw [hDX] at hd ht
  obtain ⟨s1, s2, s3⟩ := ownerOf_offset (by rw [hlens.1]; exact hd) hi
  obtain ⟨t1, t2, t3⟩ := ownerOf_offset (by rw [hlens.1]; exact ht) hj
  have e1 := hσ ⟨_, s2⟩
  have e2 := hσ ⟨_, t2⟩
  simp only [s1, s3, t1, t3] at e1 e2
  rw [← e1, ← e2]
  exact (R.covMat hrows ⟨_, s2⟩ ⟨_, t2⟩).symm

end Verif
