import Verif.Spec.FK
import Verif.Proofs.Base
import Verif.Proofs.Interp
import Mathlib.Data.List.Sort
import Mathlib.Data.List.Perm.Basic
import Mathlib.Data.List.Nodup
import Mathlib.Data.List.GetD

namespace Verif

/-! ### dicts -/
section Dict
variable {α β : Type} [DecidableEq α]

theorem dictGet_dictSet (d : List (α × β)) (k k' : α) (v : β) :
    dictGet (dictSet d k v) k' = if k = k' then some v else dictGet d k' := by
  induction d with
  | nil => simp [dictSet, dictGet]
  | cons p d ih =>
    obtain ⟨a, b⟩ := p
    simp only [dictSet]
    by_cases h : a = k
    · subst h
      simp only [↓reduceIte, dictGet]
      by_cases h2 : a = k' <;> simp [h2]
    · simp only [h, ↓reduceIte, dictGet, ih]
      by_cases h2 : a = k'
      · subst h2; simp [Ne.symm h]
      · simp [h2]

theorem dictGet_none (d : List (α × β)) (k : α) : dictGet d k = none ↔ k ∉ d.map Prod.fst := by
  induction d with
  | nil => simp [dictGet]
  | cons p d ih =>
    obtain ⟨a, b⟩ := p
    simp only [dictGet, List.map_cons, List.mem_cons, not_or]
    by_cases h : a = k
    · simp [h]
    · simp [h, ih, Ne.symm h]

theorem dictSet_keys (d : List (α × β)) (k : α) (v : β) :
    (dictSet d k v).map Prod.fst = if k ∈ d.map Prod.fst then d.map Prod.fst else d.map Prod.fst ++ [k] := by
  induction d with
  | nil => simp [dictSet]
  | cons p d ih =>
    obtain ⟨a, b⟩ := p
    simp only [dictSet]
    by_cases h : a = k
    · simp [h]
    · simp only [h, ↓reduceIte, List.map_cons, ih, List.mem_cons, Ne.symm h, false_or]
      split_ifs <;> simp

theorem dictSet_nodup {d : List (α × β)} (h : (d.map Prod.fst).Nodup) (k : α) (v : β) :
    ((dictSet d k v).map Prod.fst).Nodup := by
  rw [dictSet_keys]
  split_ifs with hk
  · exact h
  · exact List.nodup_append.2 ⟨h, by simp, by rintro a ha b hb rfl; exact hk (by simp_all)⟩

theorem mem_iff_dictGet {d : List (α × β)} (h : (d.map Prod.fst).Nodup) (k : α) (v : β) :
    (k, v) ∈ d ↔ dictGet d k = some v := by
  induction d with
  | nil => simp [dictGet]
  | cons p d ih =>
    obtain ⟨a, b⟩ := p
    simp only [List.map_cons, List.nodup_cons] at h
    simp only [List.mem_cons, dictGet, Prod.mk.injEq]
    by_cases hk : a = k
    · subst hk
      simp only [true_and, ↓reduceIte, Option.some.injEq]
      constructor
      · rintro (rfl | h')
        · rfl
        · exact absurd (List.mem_map_of_mem (f := Prod.fst) h') h.1
      · intro e; exact .inl e.symm
    · simp only [Ne.symm hk, false_and, false_or, hk, ↓reduceIte]
      exact ih h.2

end Dict

theorem resolveDims_eq (P : ℕ) (k : Kern) : resolveDims P k = dimsRead P k := by
  unfold resolveDims dimsRead
  cases k.activeDims with
  | none => rfl
  | some l =>
    refine List.Perm.eq_of_pairwise' (r := (· ≤ ·)) (α := ℕ) ?_ ?_ ?_
    · have := List.pairwise_mergeSort (le := fun a b : ℕ => decide (a ≤ b)) (by intro a b c; simp; omega) (by intro a b; simp; omega) l
      simpa using this
    · exact List.pairwise_insertionSort _ _
    · exact (List.mergeSort_perm _ _).trans (List.perm_insertionSort _ _).symm


/-! ### `set_input_dim` -/

/-- group `key` among the first `n` kernels -/
def FK.grp (fk : FK) (P n : ℕ) (key : List ℕ) : List ℕ :=
  (List.range n).filter fun i => dimsRead P (fk.kernels.getD i (.identity none)) = key

theorem grp_succ (fk : FK) (P n : ℕ) (key : List ℕ) :
    fk.grp P (n + 1) key = fk.grp P n key ++ if dimsRead P (fk.kernels.getD n (.identity none)) = key then [n] else [] := by
  unfold FK.grp
  rw [List.range_succ, List.filter_append, List.filter_singleton]
  simp

/-- what a dict of counts holds for count `c` -/
def countEntry (c : ℕ) : Option ℕ := if c = 0 then none else some c

structure LoopInv (fk : FK) (P n : ℕ) (s : FK) : Prop where
  same : s = { fk with P := some P, kernels := s.kernels, activeDims := s.activeDims, numLmc := s.numLmc,
                       numSlfm := s.numSlfm, numIndep := s.numIndep }
  klen : s.kernels.length = fk.kernels.length
  kdone : ∀ i < n, s.kernels.getD i (.identity none) = (fk.kernels.getD i (.identity none)).setActiveDims
    (some (dimsRead P (fk.kernels.getD i (.identity none))))
  nodup : (s.activeDims.map Prod.fst).Nodup
  ad : ∀ key, dictGet s.activeDims key = if fk.grp P n key = [] then none else some (fk.grp P n key)
  lmc : ∀ key, dictGet s.numLmc key = countEntry ((fk.grp P n key).filter (· < fk.numLmcTotal)).length
  slfm : ∀ key, dictGet s.numSlfm key = countEntry ((fk.grp P n key).filter fun i => fk.numLmcTotal ≤ i ∧ i < fk.numLmcTotal + fk.numSlfmTotal).length
  indep : ∀ key, dictGet s.numIndep key = countEntry ((fk.grp P n key).filter fun i => fk.numLmcTotal + fk.numSlfmTotal ≤ i).length

theorem countKey_get (d : List (List ℕ × ℕ)) (k key : List ℕ) (c : ℕ) (hc : k = key → dictGet d k = countEntry c)
    (h : dictGet d key = countEntry c) :
    dictGet (countKey d k) key = countEntry (c + if k = key then 1 else 0) := by
  unfold countKey
  rw [dictGet_dictSet]
  by_cases hk : k = key
  · subst hk
    simp only [↓reduceIte, h, countEntry]
    by_cases h0 : c = 0 <;> simp [h0]
  · simp [hk, h]

theorem loop_step (fk : FK) (P n : ℕ) (s : FK) (hn : n < fk.kernels.length) (h : LoopInv fk P n s) :
    LoopInv fk P (n + 1) (setDimStep P s n (fk.kernels.getD n (.identity none))) := by
  obtain ⟨same, klen, kdone, nodup, ad, lmc, slfm, indep⟩ := h
  have e1 : s.numLmcTotal = fk.numLmcTotal := by rw [same]
  have e2 : s.numSlfmTotal = fk.numSlfmTotal := by rw [same]
  set key0 := dimsRead P (fk.kernels.getD n (.identity none)) with hkey0
  have hk1 : ∀ i < n + 1, (s.kernels.set n ((fk.kernels.getD n (.identity none)).setActiveDims (some key0))).getD i (.identity none)
      = (fk.kernels.getD i (.identity none)).setActiveDims (some (dimsRead P (fk.kernels.getD i (.identity none)))) := by
    intro i hi
    have hil : i < fk.kernels.length := by omega
    by_cases hin : i = n
    · subst hin
      rw [List.getD_eq_getElem _ _ (by simp; omega)]
      simp [hkey0]
    · rw [← kdone i (by omega)]
      simp only [List.getD_eq_getElem?_getD, List.getElem?_set_ne (Ne.symm hin)]
  have had : ∀ key, dictGet (dictSet s.activeDims key0 ((dictGet s.activeDims key0).getD [] ++ [n])) key
      = if fk.grp P (n + 1) key = [] then none else some (fk.grp P (n + 1) key) := by
    intro key
    rw [dictGet_dictSet, grp_succ, ← hkey0, ad key, ad key0]
    by_cases hk : key0 = key
    · subst hk
      by_cases hg : fk.grp P n key0 = [] <;> simp [hg]
    · simp [hk]
  have hnd : ((dictSet s.activeDims key0 ((dictGet s.activeDims key0).getD [] ++ [n])).map Prod.fst).Nodup := dictSet_nodup nodup _ _
  have cnt : ∀ (p : ℕ → Bool) (key : List ℕ), ((fk.grp P (n + 1) key).filter p).length
      = ((fk.grp P n key).filter p).length + if key0 = key ∧ p n then 1 else 0 := by
    intro p key
    rw [grp_succ, ← hkey0, List.filter_append, List.length_append]
    by_cases hk : key0 = key
    · by_cases hp : p n <;> simp [hk, hp]
    · simp [hk]
  have hr : resolveDims P (fk.kernels.getD n (.identity none)) = key0 := resolveDims_eq _ _
  simp only [setDimStep, hr, e1, e2]
  by_cases c1 : n < fk.numLmcTotal
  · simp only [c1, ↓reduceIte]
    refine ⟨?_, ?_, hk1, hnd, had, ?_, ?_, ?_⟩
    · conv_lhs => rw [same]
    · simpa using klen
    · intro key
      rw [countKey_get _ _ _ _ (fun hk => hk ▸ lmc key) (lmc key), cnt]
      simp [c1]
    · intro key
      rw [cnt]
      simp only [slfm key]
      simp [show ¬ fk.numLmcTotal ≤ n by omega]
    · intro key
      rw [cnt]
      simp only [indep key]
      simp [show ¬ fk.numLmcTotal + fk.numSlfmTotal ≤ n by omega]
  · simp only [c1, ↓reduceIte]
    by_cases c2 : n < fk.numLmcTotal + fk.numSlfmTotal
    · simp only [c2, ↓reduceIte]
      refine ⟨?_, ?_, hk1, hnd, had, ?_, ?_, ?_⟩
      · conv_lhs => rw [same]
      · simpa using klen
      · intro key
        rw [cnt]
        simp only [lmc key]
        simp [c1]
      · intro key
        rw [countKey_get _ _ _ _ (fun hk => hk ▸ slfm key) (slfm key), cnt]
        simp [c2, show fk.numLmcTotal ≤ n by omega]
      · intro key
        rw [cnt]
        simp only [indep key]
        simp [show ¬ fk.numLmcTotal + fk.numSlfmTotal ≤ n by omega]
    · simp only [c2, ↓reduceIte]
      refine ⟨?_, ?_, hk1, hnd, had, ?_, ?_, ?_⟩
      · conv_lhs => rw [same]
      · simpa using klen
      · intro key
        rw [cnt]
        simp only [lmc key]
        simp [c1]
      · intro key
        rw [cnt]
        simp only [slfm key]
        simp [c2]
      · intro key
        rw [countKey_get _ _ _ _ (fun hk => hk ▸ indep key) (indep key), cnt]
        simp [show fk.numLmcTotal + fk.numSlfmTotal ≤ n by omega]

theorem loop_all (fk : FK) (P : ℕ) (hf : fk.Fresh) (n : ℕ) (hn : n ≤ fk.kernels.length) :
    LoopInv fk P n ((vmk n fun i => (i, fk.kernels.getD i (.identity none))).foldl
      (fun s ik => setDimStep P s ik.1 ik.2) { fk with P := some P }) := by
  induction n with
  | zero =>
    obtain ⟨h1, h2, h3, h4, h5, h6⟩ := hf
    refine ⟨rfl, rfl, by omega, ?_, ?_, ?_, ?_, ?_⟩ <;> simp [vmk, h2, h3, h4, h5, FK.grp, dictGet, countEntry]
  | succ n ih =>
    have := loop_step fk P n _ (by omega) (ih (by omega))
    unfold vmk at this ⊢
    rw [List.range_succ, List.map_append, List.foldl_append]
    simpa using this

theorem fillZeros_get (keys : List (List ℕ)) (d : List (List ℕ × ℕ)) (key : List ℕ) :
    dictGet (fillZeros keys d) key = match dictGet d key with
      | some v => some v
      | none => if key ∈ keys then some 0 else none := by
  unfold fillZeros
  induction keys generalizing d with
  | nil => cases h : dictGet d key <;> simp [h]
  | cons k keys ih =>
    rw [List.foldl_cons, ih]
    cases hk : dictGet d k with
    | some v =>
      simp only []
      cases h : dictGet d key with
      | some w => rfl
      | none =>
        have : k ≠ key := by rintro rfl; rw [hk] at h; cases h
        simp [Ne.symm this]
    | none =>
      simp only [dictGet_dictSet]
      by_cases hkk : k = key
      · subst hkk; simp [hk]
      · simp [hkk, Ne.symm hkk]

/-- everything `set_input_dim` establishes -/
structure Grouped (fk : FK) (P : ℕ) (fk' : FK) : Prop where
  same : fk' = { fk with P := some P, kernels := fk'.kernels, activeDims := fk'.activeDims, numLmc := fk'.numLmc,
                         numSlfm := fk'.numSlfm, numIndep := fk'.numIndep }
  klen : fk'.kernels.length = fk.kernels.length
  kern : ∀ i < fk.kernels.length, fk'.kernels.getD i (.identity none) = (fk.kernels.getD i (.identity none)).setActiveDims
    (some (dimsRead P (fk.kernels.getD i (.identity none))))
  nodup : (fk'.activeDims.map Prod.fst).Nodup
  mem : ∀ key idxs, (key, idxs) ∈ fk'.activeDims ↔ idxs = fk.groupOf P key ∧ idxs ≠ []
  lmc : ∀ key idxs, (key, idxs) ∈ fk'.activeDims → dictGet fk'.numLmc key = some (idxs.filter (· < fk.numLmcTotal)).length
  slfm : ∀ key idxs, (key, idxs) ∈ fk'.activeDims → dictGet fk'.numSlfm key =
    some (idxs.filter fun i => fk.numLmcTotal ≤ i ∧ i < fk.numLmcTotal + fk.numSlfmTotal).length
  indep : ∀ key idxs, (key, idxs) ∈ fk'.activeDims → dictGet fk'.numIndep key =
    some (idxs.filter fun i => fk.numLmcTotal + fk.numSlfmTotal ≤ i).length

theorem setInputDim_fresh (fk : FK) (P : ℕ) (hf : fk.Fresh) : ∃ fk', fk.setInputDim P = .ok fk' ∧ Grouped fk P fk' := by
  have hl := loop_all fk P hf fk.kernels.length le_rfl
  have hP := hf.P
  simp only [FK.setInputDim, hP]
  refine ⟨_, rfl, ?_⟩
  set s := ((vmk fk.kernels.length fun i => (i, fk.kernels.getD i (.identity none))).foldl
      (fun s ik => setDimStep P s ik.1 ik.2) { fk with P := some P })
  obtain ⟨same, klen, kdone, nodup, ad, lmc, slfm, indep⟩ := hl
  have hmem : ∀ key idxs, (key, idxs) ∈ s.activeDims ↔ idxs = fk.groupOf P key ∧ idxs ≠ [] := by
    intro key idxs
    rw [mem_iff_dictGet nodup, ad]
    change (if fk.groupOf P key = [] then none else some (fk.groupOf P key)) = some idxs ↔ _
    by_cases hg : fk.groupOf P key = []
    · simp [hg]
    · simp only [hg, ↓reduceIte, Option.some.injEq]
      constructor
      · rintro rfl; exact ⟨rfl, hg⟩
      · rintro ⟨rfl, _⟩; rfl
  have cnt : ∀ (d : List (List ℕ × ℕ)) (p : ℕ → Bool), (∀ key, dictGet d key = countEntry ((fk.grp P fk.kernels.length key).filter p).length) →
      ∀ key idxs, (key, idxs) ∈ s.activeDims → dictGet (fillZeros (s.activeDims.map Prod.fst) d) key = some (idxs.filter p).length := by
    intro d p hd key idxs hm
    have hk : key ∈ s.activeDims.map Prod.fst := List.mem_map_of_mem (f := Prod.fst) hm
    have hi := ((hmem _ _).1 hm).1
    rw [fillZeros_get, hd, hi]
    change (match countEntry ((fk.groupOf P key).filter p).length with | some v => some v | none => _) = _
    unfold countEntry
    split_ifs with h0
    · simp [hk, h0]
    · rfl
  refine ⟨?_, klen, kdone, nodup, hmem, cnt _ _ lmc, cnt _ _ slfm, cnt _ _ indep⟩
  conv_lhs => rw [same]

end Verif
