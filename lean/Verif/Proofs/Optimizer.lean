import Verif.Model.Optimizer
import Verif.Proofs.LLGPValid

/-! The flat parameter array. -/

namespace Verif

theorem upd_same {α : Type} (l : List α) (q : ℕ) (a d : α) (f : α → α) : (l.set q a).set q (f ((l.set q a).getD q d)) = l.set q (f a) := by
  by_cases h : q < l.length
  · rw [getD_set_eq h, List.set_set]
  · rw [List.set_set, List.set_eq_of_length_le (by omega), List.set_eq_of_length_le (by omega)]

theorem upd_other {α : Type} (l : List α) {q q' : ℕ} (h : q ≠ q') (d : α) (f g : α → α) :
    (l.set q (g (l.getD q d))).set q' (f ((l.set q (g (l.getD q d))).getD q' d)) = (l.set q' (f (l.getD q' d))).set q (g ((l.set q' (f (l.getD q' d))).getD q d)) := by
  rw [getD_set_ne h, getD_set_ne h.symm, List.set_comm _ _ h]

theorem upd_comm {α : Type} (l : List α) (q q' : ℕ) (d : α) (f g : α → α) (h : q = q' → ∀ a, f (g a) = g (f a)) :
    (l.set q (g (l.getD q d))).set q' (f ((l.set q (g (l.getD q d))).getD q' d)) = (l.set q' (f (l.getD q' d))).set q (g ((l.set q' (f (l.getD q' d))).getD q d)) := by
  by_cases e : q = q'
  · subst e
    rw [upd_same, upd_same, h rfl]
  · exact upd_other l e d f g

theorem Kern.write_comm : ∀ (k : Kern) {j j' : ℕ} (t t' : ℝ), j ≠ j' → (k.write j t).write j' t' = (k.write j' t').write j t
  | .rbf g a, j, j', t, t', h => by simp only [Kern.write]; congr 1; split_ifs <;> simp_all
  | .matern32 g a, j, j', t, t', h => by simp only [Kern.write]; congr 1; split_ifs <;> simp_all
  | .stdPeriodic g T a, j, j', t, t', h => by simp only [Kern.write]; congr 1 <;> split_ifs <;> simp_all
  | .identity a, j, j', t, t', h => rfl
  | .scaled k s a, j, j', t, t', h => by simp only [Kern.write]; rw [Kern.write_comm k t t' h]

theorem Kern.write_write : ∀ (k : Kern) (j : ℕ) (t t' : ℝ), (k.write j t).write j t' = k.write j t'
  | .rbf g a, j, t, t' => by simp only [Kern.write]; congr 1; split_ifs <;> rfl
  | .matern32 g a, j, t, t' => by simp only [Kern.write]; congr 1; split_ifs <;> rfl
  | .stdPeriodic g T a, j, t, t' => by simp only [Kern.write]; congr 1 <;> split_ifs <;> rfl
  | .identity a, j, t, t' => rfl
  | .scaled k s a, j, t, t' => by simp only [Kern.write]; rw [Kern.write_write k]

theorem Kern.write_linked : ∀ (k : Kern) (j : ℕ) (t : ℝ), (k.write j t).linked = k.linked.set j t
  | .rbf g a, j, t => by rcases j with _ | j <;> simp [Kern.write, Kern.linked]
  | .matern32 g a, j, t => by rcases j with _ | j <;> simp [Kern.write, Kern.linked]
  | .stdPeriodic g T a, j, t => by rcases j with _ | _ | j <;> simp [Kern.write, Kern.linked]
  | .identity a, j, t => by simp [Kern.write, Kern.linked]
  | .scaled k s a, j, t => by simp only [Kern.write, Kern.linked]; exact Kern.write_linked k j t

theorem Kern.write_self : ∀ (k : Kern) {j : ℕ}, j < k.linked.length → k.write j (k.linked.getD j 0) = k
  | .rbf g a, j, h => by rcases j with _ | j <;> simp [Kern.write, Kern.linked] at h ⊢
  | .matern32 g a, j, h => by rcases j with _ | j <;> simp [Kern.write, Kern.linked] at h ⊢
  | .stdPeriodic g T a, j, h => by rcases j with _ | _ | j <;> simp [Kern.write, Kern.linked] at h ⊢
  | .identity a, j, h => by simp [Kern.linked] at h
  | .scaled k s a, j, h => by simp only [Kern.write, Kern.linked]; rw [Kern.write_self k h]

theorem Kern.linked_le : ∀ k : Kern, k.linked.length ≤ k.params.length
  | .rbf g a => le_rfl
  | .matern32 g a => le_rfl
  | .stdPeriodic g T a => le_rfl
  | .identity a => le_rfl
  | .scaled k s a => by simp only [Kern.linked, Kern.params, List.length_append]; have := Kern.linked_le k; omega

theorem Kern.linked_params : ∀ (k : Kern) {j : ℕ}, j < k.linked.length → k.params.getD j 0 = k.linked.getD j 0
  | .rbf g a, j, h => rfl
  | .matern32 g a, j, h => rfl
  | .stdPeriodic g T a, j, h => rfl
  | .identity a, j, h => rfl
  | .scaled k s a, j, h => by
    simp only [Kern.linked, Kern.params] at h ⊢
    rw [List.getD_append _ _ _ _ (h.trans_le (Kern.linked_le k)), Kern.linked_params k h]

theorem Kern.write_setParam : ∀ (k : Kern) {j : ℕ} (t : ℝ), j < k.linked.length → k.write j t = k.setParam j t
  | .rbf g a, j, t, h => rfl
  | .matern32 g a, j, t, h => rfl
  | .stdPeriodic g T a, j, t, h => rfl
  | .identity a, j, t, h => rfl
  | .scaled k s a, j, t, h => by
    simp only [Kern.linked] at h
    have := Kern.linked_le k
    simp only [Kern.write, Kern.setParam, Kern.write_setParam k t h]
    rw [if_neg (by omega)]

theorem Arr2.write_comm (a : Arr2 ℝ) {i j i' j' : ℕ} (t t' : ℝ) (h : ¬ (i = i' ∧ j = j')) : (a.write i j t).write i' j' t' = (a.write i' j' t').write i j t := by
  unfold Arr2.write
  refine Arr2.of_congr fun r hr c hc => ?_
  have hr : r < a.rows := hr
  have hc : c < a.cols := hc
  rw [Arr2.of_get hr hc, Arr2.of_get hr hc]
  by_cases h1 : r = i ∧ c = j <;> by_cases h2 : r = i' ∧ c = j'
  · exact absurd ⟨h1.1.symm.trans h2.1, h1.2.symm.trans h2.2⟩ h
  · simp only [if_pos h1, if_neg h2]
  · simp only [if_neg h1, if_pos h2]
  · simp only [if_neg h1, if_neg h2]

theorem Arr2.write_write (a : Arr2 ℝ) (i j : ℕ) (t t' : ℝ) : (a.write i j t).write i j t' = a.write i j t' := by
  unfold Arr2.write
  refine Arr2.of_congr fun r hr c hc => ?_
  have hr : r < a.rows := hr
  have hc : c < a.cols := hc
  rw [Arr2.of_get hr hc]
  by_cases h1 : r = i ∧ c = j
  · simp only [if_pos h1]
  · simp only [if_neg h1]

theorem FK.write_comm (fk : FK) {s s' : Slot} (h : s ≠ s') (t t' : ℝ) : (fk.write s t).write s' t' = (fk.write s' t').write s t := by
  cases s with
  | kern q j =>
    cases s' with
    | kern q' j' =>
      show ({ fk with kernels := _ } : FK) = { fk with kernels := _ }
      congr 1
      exact upd_comm fk.kernels q q' (.identity none) (fun k => k.write j' t') (fun k => k.write j t) fun e k => Kern.write_comm k t t' fun e' => h (by rw [e, e'])
    | vec _ _ _ => rfl
    | diag _ _ => rfl
    | noise _ => rfl
  | vec q i j =>
    cases s' with
    | vec q' i' j' =>
      show ({ fk with coregVecs := _ } : FK) = { fk with coregVecs := _ }
      congr 1
      exact upd_comm fk.coregVecs q q' ⟨0, 0, []⟩ (fun k => k.write i' j' t') (fun k => k.write i j t) fun e k => Arr2.write_comm k t t' fun e' => h (by rw [e, e'.1, e'.2])
    | kern _ _ => rfl
    | diag _ _ => rfl
    | noise _ => rfl
  | diag q i =>
    cases s' with
    | diag q' i' =>
      show ({ fk with coregDiags := _ } : FK) = { fk with coregDiags := _ }
      congr 1
      exact upd_comm fk.coregDiags q q' [] (fun k => k.set i' t') (fun k => k.set i t) fun e k => List.set_comm _ _ fun e' => h (by rw [e, e'])
    | kern _ _ => rfl
    | vec _ _ _ => rfl
    | noise _ => rfl
  | noise i =>
    cases s' with
    | noise i' =>
      show ({ fk with noise := _ } : FK) = { fk with noise := _ }
      congr 1
      exact List.set_comm _ _ fun e => h (by rw [e])
    | kern _ _ => rfl
    | vec _ _ _ => rfl
    | diag _ _ => rfl

theorem FK.write_write (fk : FK) (s : Slot) (t t' : ℝ) : (fk.write s t).write s t' = fk.write s t' := by
  cases s with
  | kern q j =>
    show ({ fk with kernels := _ } : FK) = { fk with kernels := _ }
    congr 1
    refine (upd_same fk.kernels q _ (.identity none) (fun k => k.write j t')).trans ?_
    rw [Kern.write_write]
  | vec q i j =>
    show ({ fk with coregVecs := _ } : FK) = { fk with coregVecs := _ }
    congr 1
    refine (upd_same fk.coregVecs q _ ⟨0, 0, []⟩ (fun k => k.write i j t')).trans ?_
    rw [Arr2.write_write]
  | diag q i =>
    show ({ fk with coregDiags := _ } : FK) = { fk with coregDiags := _ }
    congr 1
    refine (upd_same fk.coregDiags q _ [] (fun k => k.set i t')).trans ?_
    rw [List.set_set]
  | noise i =>
    show ({ fk with noise := _ } : FK) = { fk with noise := _ }
    congr 1
    exact List.set_set _

/-- writing the values `f` of the slots -/
noncomputable def FK.writeAll (fk : FK) (ss : List Slot) (f : Slot → ℝ → ℝ) (x : List ℝ) : FK := (ss.zip x).foldl (fun fk p => fk.write p.1 (f p.1 p.2)) fk

theorem writeAll_through {s : Slot} (t : ℝ) (f : Slot → ℝ → ℝ) : ∀ (ss : List Slot) (x : List ℝ) (fk : FK), s ∉ ss → (fk.write s t).writeAll ss f x = (fk.writeAll ss f x).write s t
  | [], x, fk, _ => rfl
  | s' :: ss, [], fk, _ => rfl
  | s' :: ss, x :: xs, fk, h => by
    simp only [List.mem_cons, not_or] at h
    show ((fk.write s t).write s' (f s' x)).writeAll ss f xs = ((fk.write s' (f s' x)).writeAll ss f xs).write s t
    rw [FK.write_comm fk h.1, writeAll_through t f ss xs _ h.2]

theorem writeAll_set (f : Slot → ℝ → ℝ) : ∀ (ss : List Slot) (x : List ℝ) (fk : FK), ss.Nodup → ∀ (i : ℕ) (hi : i < ss.length) (t : ℝ), x.length = ss.length →
    fk.writeAll ss f (x.set i t) = (fk.writeAll ss f x).write ss[i] (f ss[i] t)
  | s :: ss, x :: xs, fk, hn, 0, hi, t, hx => by
    rw [List.nodup_cons] at hn
    show (fk.write s (f s t)).writeAll ss f xs = ((fk.write s (f s x)).writeAll ss f xs).write s (f s t)
    rw [writeAll_through _ f ss xs _ hn.1, writeAll_through _ f ss xs _ hn.1, FK.write_write]
  | s :: ss, x :: xs, fk, hn, i + 1, hi, t, hx => by
    rw [List.nodup_cons] at hn
    exact writeAll_set f ss xs _ hn.2 i (by simpa using hi) t (by simpa using hx)

theorem writeAll_again (f : Slot → ℝ → ℝ) : ∀ (ss : List Slot) (x x' : List ℝ) (fk : FK), ss.Nodup → x.length = x'.length →
    (fk.writeAll ss f x).writeAll ss f x' = fk.writeAll ss f x'
  | [], x, x', fk, _, _ => rfl
  | s :: ss, [], [], fk, _, _ => rfl
  | s :: ss, x :: xs, x' :: xs', fk, hn, hl => by
    rw [List.nodup_cons] at hn
    show (((fk.write s (f s x)).writeAll ss f xs).write s (f s x')).writeAll ss f xs' = (fk.write s (f s x')).writeAll ss f xs'
    rw [← writeAll_through _ f ss xs _ hn.1, FK.write_write, writeAll_again f ss xs xs' _ hn.2 (by simpa using hl)]

theorem FK.write_slots (fk : FK) (s : Slot) (t : ℝ) : (fk.write s t).slots = fk.slots := by
  have upd : ∀ {α : Type} (l : List α) (d : α) (q q' : ℕ) (f : α → α) (g : α → ℕ), (∀ a, g (f a) = g a) → g ((l.set q (f (l.getD q d))).getD q' d) = g (l.getD q' d) := by
    intro α l d q q' f g h
    by_cases e : q = q'
    · subst e
      by_cases hl : q < l.length
      · rw [getD_set_eq hl, h]
      · rw [List.set_eq_of_length_le (by omega)]
    · rw [getD_set_ne e]
  cases s with
  | kern q j =>
    unfold FK.slots FK.write
    simp only [List.length_set]
    simp only [upd fk.kernels (.identity none) q _ (fun k => k.write j t) (fun k => k.linked.length) (fun k => by rw [Kern.write_linked, List.length_set])]
  | vec q i j =>
    unfold FK.slots FK.write
    simp only [upd fk.coregVecs ⟨0, 0, []⟩ q _ (fun k => k.write i j t) Arr2.rows (fun k => rfl), upd fk.coregVecs ⟨0, 0, []⟩ q _ (fun k => k.write i j t) Arr2.cols (fun k => rfl)]
  | diag q i =>
    unfold FK.slots FK.write
    simp only [upd fk.coregDiags [] q _ (fun k => k.set i t) List.length (fun k => List.length_set)]
  | noise i =>
    unfold FK.slots FK.write
    simp only [List.length_set]

theorem writeAll_slots (f : Slot → ℝ → ℝ) : ∀ (ss : List Slot) (x : List ℝ) (fk : FK), (fk.writeAll ss f x).slots = fk.slots
  | [], x, fk => rfl
  | s :: ss, [], fk => rfl
  | s :: ss, x :: xs, fk => (writeAll_slots f ss xs _).trans (FK.write_slots fk s _)

theorem mem_slots {fk : FK} {s : Slot} : s ∈ fk.slots ↔ match s with
    | .kern q j => q < fk.kernels.length ∧ j < (fk.kernels.getD q (.identity none)).linked.length
    | .vec q i j => q < fk.linkedVecs ∧ i < (fk.coregVecs.getD q ⟨0, 0, []⟩).rows ∧ j < (fk.coregVecs.getD q ⟨0, 0, []⟩).cols
    | .diag q i => q < fk.linkedDiags ∧ i < (fk.coregDiags.getD q []).length
    | .noise i => i < fk.noise.length := by
  cases s <;> simp [FK.slots]

theorem slots_nodup (fk : FK) : fk.slots.Nodup := by
  unfold FK.slots
  refine List.Nodup.append (List.Nodup.append (List.Nodup.append ?_ ?_ ?_) ?_ ?_) ?_ ?_
  · rw [List.nodup_flatMap]
    refine ⟨fun q _ => List.nodup_range.map fun a b h => by simpa using h, List.nodup_range.imp_of_mem fun {a b} _ _ h => ?_⟩
    intro s h1 h2
    simp only [List.mem_map] at h1 h2
    obtain ⟨_, _, rfl⟩ := h1
    obtain ⟨_, _, h2⟩ := h2
    simp only [Slot.kern.injEq] at h2
    exact h h2.1.symm
  · rw [List.nodup_flatMap]
    refine ⟨fun q _ => ?_, List.nodup_range.imp_of_mem fun {a b} _ _ h => ?_⟩
    · rw [List.nodup_flatMap]
      refine ⟨fun q _ => List.nodup_range.map fun a b h => by simpa using h, List.nodup_range.imp_of_mem fun {a b} _ _ h => ?_⟩
      intro s h1 h2
      simp only [List.mem_map] at h1 h2
      obtain ⟨_, _, rfl⟩ := h1
      obtain ⟨_, _, h2⟩ := h2
      simp only [Slot.vec.injEq] at h2
      exact h h2.2.1.symm
    · intro s h1 h2
      simp only [List.mem_flatMap, List.mem_map] at h1 h2
      obtain ⟨_, _, _, _, rfl⟩ := h1
      obtain ⟨_, _, _, _, h2⟩ := h2
      simp only [Slot.vec.injEq] at h2
      exact h h2.1.symm
  · intro s h1 h2
    simp only [List.mem_flatMap, List.mem_map] at h1 h2
    obtain ⟨_, _, _, _, rfl⟩ := h1
    obtain ⟨_, _, _, _, _, _, h2⟩ := h2
    cases h2
  · rw [List.nodup_flatMap]
    refine ⟨fun q _ => List.nodup_range.map fun a b h => by simpa using h, List.nodup_range.imp_of_mem fun {a b} _ _ h => ?_⟩
    intro s h1 h2
    simp only [List.mem_map] at h1 h2
    obtain ⟨_, _, rfl⟩ := h1
    obtain ⟨_, _, h2⟩ := h2
    simp only [Slot.diag.injEq] at h2
    exact h h2.1.symm
  · intro s h1 h2
    simp only [List.mem_append, List.mem_flatMap, List.mem_map] at h1 h2
    obtain ⟨_, _, _, _, rfl⟩ := h2
    rcases h1 with ⟨_, _, _, _, h1⟩ | ⟨_, _, _, _, _, _, h1⟩ <;> cases h1
  · exact List.nodup_range.map fun a b h => by simpa using h
  · intro s h1 h2
    simp only [List.mem_append, List.mem_flatMap, List.mem_map] at h1 h2
    obtain ⟨_, _, rfl⟩ := h2
    rcases h1 with (⟨_, _, _, _, h1⟩ | ⟨_, _, _, _, _, _, h1⟩) | ⟨_, _, _, _, h1⟩ <;> cases h1


/-- the kernel with all linked hyperparameters replaced by zeros -/
def Kern.skeleton : Kern → Kern
  | .rbf _ a => .rbf 0 a
  | .matern32 _ a => .matern32 0 a
  | .stdPeriodic _ _ a => .stdPeriodic 0 0 a
  | .identity a => .identity a
  | .scaled k s a => .scaled k.skeleton s a

theorem Kern.write_skeleton : ∀ (k : Kern) (j : ℕ) (t : ℝ), (k.write j t).skeleton = k.skeleton
  | .rbf g a, j, t => rfl
  | .matern32 g a, j, t => rfl
  | .stdPeriodic g T a, j, t => rfl
  | .identity a, j, t => rfl
  | .scaled k s a, j, t => by simp only [Kern.write, Kern.skeleton]; rw [Kern.write_skeleton k]

/-- everything but the linked values is the same -/
structure FK.Frame (fk fk' : FK) : Prop where
  D : fk'.D = fk.D
  P : fk'.P = fk.P
  linkedVecs : fk'.linkedVecs = fk.linkedVecs
  linkedDiags : fk'.linkedDiags = fk.linkedDiags
  lmcTotal : fk'.numLmcTotal = fk.numLmcTotal
  slfmTotal : fk'.numSlfmTotal = fk.numSlfmTotal
  groups : fk'.activeDims = fk.activeDims
  lmc : fk'.numLmc = fk.numLmc
  slfm : fk'.numSlfm = fk.numSlfm
  indep : fk'.numIndep = fk.numIndep
  count : fk'.kernels.length = fk.kernels.length
  kernels : ∀ q, (fk'.kernels.getD q (.identity none)).skeleton = (fk.kernels.getD q (.identity none)).skeleton
  vecsLength : fk'.coregVecs.length = fk.coregVecs.length
  rows : ∀ q, (fk'.coregVecs.getD q ⟨0, 0, []⟩).rows = (fk.coregVecs.getD q ⟨0, 0, []⟩).rows
  cols : ∀ q, (fk'.coregVecs.getD q ⟨0, 0, []⟩).cols = (fk.coregVecs.getD q ⟨0, 0, []⟩).cols
  vecWF : ∀ q, (fk.coregVecs.getD q ⟨0, 0, []⟩).WF → (fk'.coregVecs.getD q ⟨0, 0, []⟩).WF
  vecs : ∀ q, fk.linkedVecs ≤ q → fk'.coregVecs.getD q ⟨0, 0, []⟩ = fk.coregVecs.getD q ⟨0, 0, []⟩
  diagsLength : fk'.coregDiags.length = fk.coregDiags.length
  diagLength : ∀ q, (fk'.coregDiags.getD q []).length = (fk.coregDiags.getD q []).length
  diags : ∀ q, fk.linkedDiags ≤ q → fk'.coregDiags.getD q [] = fk.coregDiags.getD q []
  noise : fk'.noise.length = fk.noise.length

theorem FK.Frame.refl (fk : FK) : fk.Frame fk :=
  ⟨rfl, rfl, rfl, rfl, rfl, rfl, rfl, rfl, rfl, rfl, rfl, fun _ => rfl, rfl, fun _ => rfl, fun _ => rfl, fun _ h => h, fun _ _ => rfl, rfl, fun _ => rfl, fun _ _ => rfl, rfl⟩

theorem FK.Frame.trans {a b c : FK} (h : a.Frame b) (h' : b.Frame c) : a.Frame c :=
  ⟨h'.D.trans h.D, h'.P.trans h.P, h'.linkedVecs.trans h.linkedVecs, h'.linkedDiags.trans h.linkedDiags, h'.lmcTotal.trans h.lmcTotal, h'.slfmTotal.trans h.slfmTotal,
    h'.groups.trans h.groups, h'.lmc.trans h.lmc, h'.slfm.trans h.slfm, h'.indep.trans h.indep, h'.count.trans h.count, fun q => (h'.kernels q).trans (h.kernels q),
    h'.vecsLength.trans h.vecsLength, fun q => (h'.rows q).trans (h.rows q), fun q => (h'.cols q).trans (h.cols q), fun q hq => h'.vecWF q (h.vecWF q hq),
    fun q hq => (h'.vecs q (h.linkedVecs ▸ hq)).trans (h.vecs q hq), h'.diagsLength.trans h.diagsLength, fun q => (h'.diagLength q).trans (h.diagLength q),
    fun q hq => (h'.diags q (h.linkedDiags ▸ hq)).trans (h.diags q hq), h'.noise.trans h.noise⟩

theorem upd_prop {α : Type} (l : List α) (d : α) (q q' : ℕ) (f : α → α) (R : α → α → Prop) (hr : ∀ a, R a a) (h : ∀ a, R (f a) a) :
    R ((l.set q (f (l.getD q d))).getD q' d) (l.getD q' d) := by
  by_cases e : q = q'
  · subst e
    by_cases hl : q < l.length
    · rw [getD_set_eq hl]; exact h _
    · rw [List.set_eq_of_length_le (by omega)]; exact hr _
  · rw [getD_set_ne e]; exact hr _

theorem FK.write_frame {fk : FK} {s : Slot} (hs : s ∈ fk.slots) (t : ℝ) : fk.Frame (fk.write s t) := by
  cases s with
  | kern q j =>
    exact { FK.Frame.refl fk with
      count := List.length_set
      kernels := fun q' => upd_prop fk.kernels (.identity none) q q' (fun k => k.write j t) (fun a b => a.skeleton = b.skeleton) (fun _ => rfl) fun k => Kern.write_skeleton k j t }
  | vec q i j =>
    rw [mem_slots] at hs
    exact { FK.Frame.refl fk with
      vecsLength := List.length_set
      rows := fun q' => upd_prop fk.coregVecs ⟨0, 0, []⟩ q q' (fun k => k.write i j t) (fun a b => a.rows = b.rows) (fun _ => rfl) fun k => rfl
      cols := fun q' => upd_prop fk.coregVecs ⟨0, 0, []⟩ q q' (fun k => k.write i j t) (fun a b => a.cols = b.cols) (fun _ => rfl) fun k => rfl
      vecWF := fun q' => upd_prop fk.coregVecs ⟨0, 0, []⟩ q q' (fun k => k.write i j t) (fun a b => b.WF → a.WF) (fun _ h => h) fun k _ => Arr2.of_wf _ _ _
      vecs := fun q' hq => getD_set_ne (by have := hs.1; omega) }
  | diag q i =>
    rw [mem_slots] at hs
    exact { FK.Frame.refl fk with
      diagsLength := List.length_set
      diagLength := fun q' => upd_prop fk.coregDiags [] q q' (fun k => k.set i t) (fun a b => a.length = b.length) (fun _ => rfl) fun k => List.length_set
      diags := fun q' hq => getD_set_ne (by have := hs.1; omega) }
  | noise i => exact { FK.Frame.refl fk with noise := List.length_set }

theorem writeAll_frame (f : Slot → ℝ → ℝ) : ∀ (ss : List Slot) (x : List ℝ) (fk : FK), (∀ s ∈ ss, s ∈ fk.slots) → fk.Frame (fk.writeAll ss f x)
  | [], x, fk, _ => FK.Frame.refl fk
  | s :: ss, [], fk, _ => FK.Frame.refl fk
  | s :: ss, x :: xs, fk, h =>
    (FK.write_frame (h s (by simp)) (f s x)).trans (writeAll_frame f ss xs _ fun s' hs' => by rw [FK.write_slots]; exact h s' (by simp [hs']))

/-- the arrays are as long as the numbers of linked ones say -/
structure FK.Stored (fk : FK) : Prop where
  vecs : fk.linkedVecs ≤ fk.coregVecs.length
  diags : fk.linkedDiags ≤ fk.coregDiags.length

theorem FK.Stored.frame {fk fk' : FK} (h : fk.Stored) (hf : fk.Frame fk') : fk'.Stored :=
  ⟨by rw [hf.linkedVecs, hf.vecsLength]; exact h.vecs, by rw [hf.linkedDiags, hf.diagsLength]; exact h.diags⟩

theorem FK.read_write_self {fk : FK} (hst : fk.Stored) {s : Slot} (hs : s ∈ fk.slots) (t : ℝ) : (fk.write s t).read s = t := by
  cases s with
  | kern q j =>
    rw [mem_slots] at hs
    show ((fk.kernels.set q _).getD q _).linked.getD j 0 = t
    rw [getD_set_eq hs.1, Kern.write_linked, getD_set_eq hs.2]
  | vec q i j =>
    rw [mem_slots] at hs
    have := hst.vecs
    show Arr2.get ((fk.coregVecs.set q _).getD q _) i j = t
    rw [getD_set_eq (by omega)]
    unfold Arr2.write
    rw [Arr2.of_get hs.2.1 hs.2.2, if_pos ⟨rfl, rfl⟩]
  | diag q i =>
    rw [mem_slots] at hs
    have := hst.diags
    show ((fk.coregDiags.set q _).getD q _).getD i 0 = t
    rw [getD_set_eq (by omega), getD_set_eq hs.2]
  | noise i =>
    rw [mem_slots] at hs
    exact getD_set_eq hs

theorem FK.read_write_ne {fk : FK} {s s' : Slot} (hs' : s' ∈ fk.slots) (h : s ≠ s') (t : ℝ) : (fk.write s t).read s' = fk.read s' := by
  cases s with
  | kern q j =>
    cases s' with
    | kern q' j' =>
      show ((fk.kernels.set q _).getD q' _).linked.getD j' 0 = (fk.kernels.getD q' _).linked.getD j' 0
      by_cases e : q = q'
      · subst e
        have hj : j ≠ j' := fun e => h (by rw [e])
        exact upd_prop fk.kernels (.identity none) q q (fun k => k.write j t) (fun a b => a.linked.getD j' 0 = b.linked.getD j' 0) (fun _ => rfl) fun k => by
          rw [Kern.write_linked, getD_set_ne hj]
      · rw [getD_set_ne e]
    | vec _ _ _ => rfl
    | diag _ _ => rfl
    | noise _ => rfl
  | vec q i j =>
    cases s' with
    | vec q' i' j' =>
      rw [mem_slots] at hs'
      show Arr2.get ((fk.coregVecs.set q _).getD q' _) i' j' = Arr2.get (fk.coregVecs.getD q' _) i' j'
      by_cases e : q = q'
      · subst e
        by_cases hl : q < fk.coregVecs.length
        · rw [getD_set_eq hl]
          unfold Arr2.write
          rw [Arr2.of_get hs'.2.1 hs'.2.2, if_neg fun e => h (by rw [e.1, e.2])]
        · rw [List.set_eq_of_length_le (by omega)]
      · rw [getD_set_ne e]
    | kern _ _ => rfl
    | diag _ _ => rfl
    | noise _ => rfl
  | diag q i =>
    cases s' with
    | diag q' i' =>
      show ((fk.coregDiags.set q _).getD q' _).getD i' 0 = (fk.coregDiags.getD q' _).getD i' 0
      by_cases e : q = q'
      · subst e
        have hj : i ≠ i' := fun e => h (by rw [e])
        exact upd_prop fk.coregDiags [] q q (fun k => k.set i t) (fun a b => a.getD i' 0 = b.getD i' 0) (fun _ => rfl) fun k => by
          rw [getD_set_ne hj]
      · rw [getD_set_ne e]
    | kern _ _ => rfl
    | vec _ _ _ => rfl
    | noise _ => rfl
  | noise i =>
    cases s' with
    | noise i' => exact getD_set_ne fun e => h (by rw [e])
    | kern _ _ => rfl
    | vec _ _ _ => rfl
    | diag _ _ => rfl

theorem read_writeAll_notMem (f : Slot → ℝ → ℝ) {s : Slot} : ∀ (ss : List Slot) (x : List ℝ) (fk : FK), s ∈ fk.slots → s ∉ ss → (fk.writeAll ss f x).read s = fk.read s
  | [], x, fk, _, _ => rfl
  | s' :: ss, [], fk, _, _ => rfl
  | s' :: ss, x :: xs, fk, hs, h => by
    simp only [List.mem_cons, not_or] at h
    show ((fk.write s' (f s' x)).writeAll ss f xs).read s = fk.read s
    rw [read_writeAll_notMem f ss xs _ (by rw [FK.write_slots]; exact hs) h.2, FK.read_write_ne hs (Ne.symm h.1)]

theorem read_writeAll (f : Slot → ℝ → ℝ) : ∀ (ss : List Slot) (x : List ℝ) (fk : FK), fk.Stored → ss.Nodup → (∀ s ∈ ss, s ∈ fk.slots) → ∀ (i : ℕ) (hi : i < ss.length),
    x.length = ss.length → (fk.writeAll ss f x).read ss[i] = f ss[i] (x.getD i 0)
  | s :: ss, x :: xs, fk, hst, hn, hm, 0, hi, hx => by
    rw [List.nodup_cons] at hn
    show ((fk.write s (f s x)).writeAll ss f xs).read s = f s x
    rw [read_writeAll_notMem f ss xs _ (by rw [FK.write_slots]; exact hm s (by simp)) hn.1, FK.read_write_self hst (hm s (by simp))]
  | s :: ss, x :: xs, fk, hst, hn, hm, i + 1, hi, hx => by
    rw [List.nodup_cons] at hn
    exact read_writeAll f ss xs _ (hst.frame (FK.write_frame (hm s (by simp)) _)) hn.2 (fun s' hs' => by rw [FK.write_slots]; exact hm s' (by simp [hs'])) i (by simpa using hi)
      (by simpa using hx)

end Verif
