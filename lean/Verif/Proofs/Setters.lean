import Verif.Spec.Setters
import Verif.Proofs.OptimizerValid

/-! Assignments to the parameters of a functional kernel. -/

namespace Verif

/-! ### broadcasting -/

theorem stripOnes_spec (l : List ℕ) : (∃ k, l = List.replicate k 1 ++ stripOnes l) ∧ ∀ a b, stripOnes l = a :: b → a ≠ 1 := by
  induction l with
  | nil => exact ⟨⟨0, rfl⟩, fun a b h => by simp [stripOnes] at h⟩
  | cons a l ih =>
    by_cases h : a = 1
    · subst h
      obtain ⟨⟨k, hk⟩, h2⟩ := ih
      refine ⟨⟨k + 1, ?_⟩, h2⟩
      show 1 :: l = 1 :: (List.replicate k 1 ++ stripOnes l)
      rw [← hk]
    · have : stripOnes (a :: l) = a :: l := by
        unfold stripOnes
        split
        · rename_i he
          exact absurd (List.cons.inj he).1 h
        · rfl
      rw [this]
      exact ⟨⟨0, rfl⟩, fun b c hb => by rw [← (List.cons.inj hb).1]; exact h⟩

theorem aligned_ones (k : ℕ) (t : List ℕ) : Aligned (List.replicate k 1) t := by
  induction k generalizing t with
  | zero => exact trivial
  | succ k ih =>
    cases t with
    | nil => exact ⟨rfl, ih []⟩
    | cons a t => exact ⟨Or.inl rfl, ih t⟩

theorem aligned_append (l t : List ℕ) (k : ℕ) : Aligned (l ++ List.replicate k 1) t ↔ Aligned l t := by
  induction l generalizing t with
  | nil => exact ⟨fun _ => trivial, fun _ => aligned_ones k t⟩
  | cons a l ih =>
    cases t with
    | nil => exact and_congr_right fun _ => ih []
    | cons b t => exact and_congr_right fun _ => ih t

theorem readPos_ones (k : ℕ) (i : List ℕ) : readPos (List.replicate k 1) i = 0 := by
  induction k generalizing i with
  | zero => rfl
  | succ k ih =>
    cases i with
    | nil => rfl
    | cons a i =>
      show (if 1 = 1 then 0 else a) + 1 * readPos (List.replicate k 1) i = 0
      rw [ih, if_pos rfl]

theorem readPos_append (l i : List ℕ) (k : ℕ) : readPos (l ++ List.replicate k 1) i = readPos l i := by
  induction l generalizing i with
  | nil => exact readPos_ones k i
  | cons a l ih =>
    cases i with
    | nil => rfl
    | cons b i =>
      show (if a = 1 then 0 else b) + a * readPos (l ++ List.replicate k 1) i = (if a = 1 then 0 else b) + a * readPos l i
      rw [ih]

theorem broadcasts_strip (l t : List ℕ) : BroadcastsTo l t ↔ Aligned (stripOnes l).reverse t.reverse := by
  obtain ⟨⟨k, hk⟩, -⟩ := stripOnes_spec l
  unfold BroadcastsTo
  conv_lhs => rw [hk]
  rw [List.reverse_append, List.reverse_replicate]
  exact aligned_append _ _ _

theorem spread_strip (v : NDArr ℝ) (i : List ℕ) : v.spread i = v.data.getD (readPos (stripOnes v.shape).reverse i.reverse) 0 := by
  obtain ⟨⟨k, hk⟩, -⟩ := stripOnes_spec v.shape
  unfold NDArr.spread
  conv_lhs => rw [hk]
  rw [List.reverse_append, List.reverse_replicate, readPos_append]

theorem aligned_long {l : List ℕ} {a : ℕ} (ha : a ≠ 1) (t : List ℕ) (hl : t.length < (l ++ [a]).length) : ¬ Aligned (l ++ [a]) t := by
  induction l generalizing t with
  | nil =>
    cases t with
    | nil => exact fun h => ha h.1
    | cons b t => simp at hl
  | cons b l ih =>
    cases t with
    | nil => exact fun h => ih [] (by simp) h.2
    | cons c t => exact fun h => ih t (by simpa using hl) h.2

theorem fill1_ok {n : ℕ} {v : NDArr ℝ} (h : BroadcastsTo v.shape [n]) : fill1 n v = .ok (vmk n fun i => v.spread [i]) := by
  have hs := stripOnes_spec v.shape
  have hr := fun i => spread_strip v [i]
  rw [broadcasts_strip] at h
  unfold fill1
  revert h hs hr
  generalize stripOnes v.shape = l
  intro h hs hr
  match l, hs, h, hr with
  | [], _, _, hr =>
    simp only
    congr 2
    funext i
    rw [hr]; rfl
  | [k], hs, h, hr =>
    have hk : k ≠ 1 := hs.2 k [] rfl
    have : k = n := h.1.resolve_left hk
    simp only
    rw [if_pos this]
    congr 2
    funext i
    rw [hr]
    show _ = v.data.getD ((if k = 1 then 0 else i) + k * 0) 0
    rw [if_neg hk]; rfl
  | a :: b :: l, hs, h, _ =>
    exfalso
    rw [List.reverse_cons] at h
    exact aligned_long (hs.2 a _ rfl) _ (by simp) h

theorem fill1_error {n : ℕ} {v : NDArr ℝ} (h : ¬ BroadcastsTo v.shape [n]) : fill1 n v = .error .valueError := by
  rw [broadcasts_strip] at h
  unfold fill1
  revert h
  generalize stripOnes v.shape = l
  intro h
  match l, h with
  | [], h => exact absurd trivial h
  | [k], h =>
    simp only
    rw [if_neg fun e => h ⟨Or.inr e, trivial⟩]
  | a :: b :: l, _ => rfl

theorem fill2_ok {r c : ℕ} {v : NDArr ℝ} (h : BroadcastsTo v.shape [r, c]) : fill2 r c v = .ok (Arr2.of r c fun i j => v.spread [i, j]) := by
  have hs := stripOnes_spec v.shape
  have hr := fun i j => spread_strip v [i, j]
  rw [broadcasts_strip] at h
  unfold fill2
  revert h hs hr
  generalize stripOnes v.shape = l
  intro h hs hr
  match l, hs, h, hr with
  | [], _, _, hr =>
    simp only
    congr 2
    funext i j
    rw [hr]; rfl
  | [k], hs, h, hr =>
    have hk : k ≠ 1 := hs.2 k [] rfl
    have : k = c := h.1.resolve_left hk
    simp only
    rw [if_pos this]
    congr 2
    funext i j
    rw [hr]
    show _ = v.data.getD ((if k = 1 then 0 else j) + k * 0) 0
    rw [if_neg hk]; rfl
  | [a, b], hs, h, hr =>
    have ha : a ≠ 1 := hs.2 a [b] rfl
    have h2 : a = r := h.2.1.resolve_left ha
    simp only
    rw [if_pos h2]
    have hr' : ∀ i j, v.spread [i, j] = v.data.getD ((if b = 1 then 0 else j) + b * i) 0 := by
      intro i j
      rw [hr]
      show v.data.getD ((if b = 1 then 0 else j) + b * ((if a = 1 then 0 else i) + a * 0)) 0 = _
      rw [if_neg ha]; rfl
    by_cases hb : b = c
    · rw [if_pos hb]
      congr 1
      refine Arr2.of_congr fun i hi j hj => ?_
      rw [hr']
      congr 1
      subst hb
      by_cases h1 : b = 1
      · subst h1
        have : j = 0 := by omega
        subst this
        simp
      · rw [if_neg h1, Nat.mul_comm, Nat.add_comm]
    · have h1 : b = 1 := h.1.resolve_right hb
      rw [if_neg hb, if_pos h1]
      congr 2
      funext i j
      rw [hr', h1]
      simp
  | a :: b :: d :: l, hs, h, _ =>
    exfalso
    rw [List.reverse_cons] at h
    exact aligned_long (hs.2 a _ rfl) _ (by simp) h

theorem fill2_error {r c : ℕ} {v : NDArr ℝ} (h : ¬ BroadcastsTo v.shape [r, c]) : fill2 r c v = .error .valueError := by
  rw [broadcasts_strip] at h
  unfold fill2
  revert h
  generalize stripOnes v.shape = l
  intro h
  match l, h with
  | [], h => exact absurd trivial h
  | [k], h =>
    simp only
    rw [if_neg fun e => h ⟨Or.inr e, trivial⟩]
  | [a, b], h =>
    simp only
    by_cases ha : a = r
    · rw [if_pos ha]
      by_cases hb : b = c
      · exact absurd ⟨Or.inr hb, Or.inr ha, trivial⟩ h
      · rw [if_neg hb, if_neg fun e => h ⟨Or.inl e, Or.inr ha, trivial⟩]
    · rw [if_neg ha]
  | a :: b :: d :: l, _ => rfl

/-! ### one array -/

theorem FK.SameBut.refl (fk : FK) : fk.SameBut fk := ⟨rfl, rfl, rfl, fun _ => rfl⟩

theorem FK.SameBut.trans {a b c : FK} (h : a.SameBut b) (h' : b.SameBut c) : a.SameBut c := by
  obtain ⟨h1, h2, h3, h4⟩ := h
  obtain ⟨g1, g2, g3, g4⟩ := h'
  refine ⟨?_, g2.trans h2, g3.trans h3, fun t => (g4 t).trans (h4 t)⟩
  rw [g1, h1]

theorem FK.SameBut.has {fk fk' : FK} (h : fk.SameBut fk') (t : Target) : fk'.has t ↔ fk.has t := by
  cases t with
  | noise => exact Iff.rfl
  | vec q => show q < _ ↔ q < _; rw [h.2.1]
  | diag q => show q < _ ↔ q < _; rw [h.2.2.1]

theorem FK.SameBut.links {fk fk' : FK} (h : fk.SameBut fk') (t : Target) : fk'.links t = fk.links t := by
  rw [h.1]
  cases t <;> rfl

theorem indexOf_one {idx : List ℕ} {n : ℕ} (h : IndexOf idx [n]) : ∃ i, idx = [i] ∧ i < n := by
  cases h with
  | cons h1 h2 => cases h2; exact ⟨_, rfl, h1⟩

theorem indexOf_two {idx : List ℕ} {n m : ℕ} (h : IndexOf idx [n, m]) : ∃ i j, idx = [i, j] ∧ i < n ∧ j < m := by
  cases h with
  | cons h1 h2 =>
    obtain ⟨j, rfl, hj⟩ := indexOf_one h2
    exact ⟨_, j, rfl, h1, hj⟩

theorem assign_ok {fk : FK} {t : Target} {v : NDArr ℝ} (ht : fk.has t) (h : BroadcastsTo v.shape (fk.shapeAt t)) :
    ∃ fk', fk.assign t v = .ok fk' ∧ fk.SameBut fk' ∧ (∀ t' idx, IndexOf idx (fk.shapeAt t') → fk'.entry t' idx = if t' = t then v.spread idx else fk.entry t' idx) ∧
      ∀ q, (fk.coregVecs.getD q ⟨0, 0, []⟩).WF → (fk'.coregVecs.getD q ⟨0, 0, []⟩).WF := by
  cases t with
  | noise =>
    refine ⟨{ fk with noise := vmk fk.noise.length fun i => v.spread [i] }, ?_, ⟨rfl, rfl, rfl, fun t => ?_⟩, fun t' idx hi => ?_, fun _ h => h⟩
    · show fill1 _ _ >>= _ = _
      rw [fill1_ok h]; rfl
    · cases t with
      | noise => show [(vmk _ _).length] = [_]; rw [vmk_length]
      | vec q => rfl
      | diag q => rfl
    · cases t' with
      | noise =>
        obtain ⟨i, rfl, hi'⟩ := indexOf_one hi
        rw [if_pos rfl]
        exact vmk_getD_lt hi'
      | vec q => obtain ⟨i, j, rfl, -, -⟩ := indexOf_two hi; rw [if_neg (by simp)]; rfl
      | diag q => obtain ⟨i, rfl, -⟩ := indexOf_one hi; rw [if_neg (by simp)]; rfl
  | vec q =>
    have ht : q < fk.coregVecs.length := ht
    refine ⟨{ fk with coregVecs := fk.coregVecs.set q (Arr2.of (fk.coregVecs.getD q ⟨0, 0, []⟩).rows (fk.coregVecs.getD q ⟨0, 0, []⟩).cols fun i j => v.spread [i, j]) }, ?_,
      ⟨rfl, List.length_set, rfl, fun t => ?_⟩, fun t' idx hi => ?_, fun q' hq' => ?_⟩
    · show fill2 _ _ _ >>= _ = _
      rw [fill2_ok h]; rfl
    · cases t with
      | noise => rfl
      | vec q' =>
        show [((fk.coregVecs.set q _).getD q' _).rows, ((fk.coregVecs.set q _).getD q' _).cols] = [_, _]
        rw [set_getD _ _ _ _ _ ht]
        by_cases e : q' = q
        · rw [if_pos e, e]; rfl
        · rw [if_neg e]
      | diag q => rfl
    · cases t' with
      | noise => obtain ⟨i, rfl, -⟩ := indexOf_one hi; rw [if_neg (by simp)]; rfl
      | vec q' =>
        obtain ⟨i, j, rfl, hi, hj⟩ := indexOf_two hi
        show ((fk.coregVecs.set q _).getD q' _).get i j = _
        rw [set_getD _ _ _ _ _ ht]
        by_cases e : q' = q
        · subst e
          rw [if_pos rfl, if_pos rfl, Arr2.of_get hi hj]
        · rw [if_neg e, if_neg (by simpa using e)]; rfl
      | diag q => obtain ⟨i, rfl, -⟩ := indexOf_one hi; rw [if_neg (by simp)]; rfl
    · show ((fk.coregVecs.set q _).getD q' _).WF
      rw [set_getD _ _ _ _ _ ht]
      by_cases e : q' = q
      · rw [if_pos e]; exact Arr2.of_wf _ _ _
      · rw [if_neg e]; exact hq'
  | diag q =>
    have ht : q < fk.coregDiags.length := ht
    refine ⟨{ fk with coregDiags := fk.coregDiags.set q (vmk (fk.coregDiags.getD q []).length fun i => v.spread [i]) }, ?_,
      ⟨rfl, rfl, List.length_set, fun t => ?_⟩, fun t' idx hi => ?_, fun _ h => h⟩
    · show fill1 _ _ >>= _ = _
      rw [fill1_ok h]; rfl
    · cases t with
      | noise => rfl
      | vec q' => rfl
      | diag q' =>
        show [((fk.coregDiags.set q _).getD q' _).length] = [_]
        rw [set_getD _ _ _ _ _ ht]
        by_cases e : q' = q
        · rw [if_pos e, e, vmk_length]
        · rw [if_neg e]
    · cases t' with
      | noise => obtain ⟨i, rfl, -⟩ := indexOf_one hi; rw [if_neg (by simp)]; rfl
      | vec q' => obtain ⟨i, j, rfl, -, -⟩ := indexOf_two hi; rw [if_neg (by simp)]; rfl
      | diag q' =>
        obtain ⟨i, rfl, hi'⟩ := indexOf_one hi
        show ((fk.coregDiags.set q _).getD q' _).getD i 0 = _
        rw [set_getD _ _ _ _ _ ht]
        by_cases e : q' = q
        · subst e
          rw [if_pos rfl, if_pos rfl, vmk_getD_lt hi']
        · rw [if_neg e, if_neg (by simpa using e)]; rfl

theorem assign_error {fk : FK} {t : Target} {v : NDArr ℝ} (h : ¬ BroadcastsTo v.shape (fk.shapeAt t)) : fk.assign t v = .error .valueError := by
  cases t with
  | noise => show fill1 _ _ >>= _ = _; rw [fill1_error h]; rfl
  | vec q => show fill2 _ _ _ >>= _ = _; rw [fill2_error h]; rfl
  | diag q => show fill1 _ _ >>= _ = _; rw [fill1_error h]; rfl

/-! ### one assignment after the other -/

/-- the last value for an array -/
def lastIn : List (Target × NDArr ℝ) → Target → Option (NDArr ℝ)
  | [], _ => none
  | p :: ps, t => (lastIn ps t).or (if t = p.1 then some p.2 else none)

/-- what an array contains when it was given a value, or not -/
def contents (fk : FK) (o : Option (NDArr ℝ)) (t : Target) (idx : List ℕ) : ℝ := match o with
  | some v => v.spread idx
  | none => fk.entry t idx

theorem assignAll_ok : ∀ (ps : List (Target × NDArr ℝ)) (fk : FK), (∀ p ∈ ps, fk.has p.1 ∧ BroadcastsTo p.2.shape (fk.shapeAt p.1)) →
    ∃ fk', fk.assignAll ps = (.ok (), fk') ∧ fk.SameBut fk' ∧ ∀ t idx, IndexOf idx (fk.shapeAt t) → fk'.entry t idx = contents fk (lastIn ps t) t idx
  | [], fk, _ => ⟨fk, rfl, FK.SameBut.refl fk, fun _ _ _ => rfl⟩
  | p :: ps, fk, h => by
    obtain ⟨h1, h2⟩ := h p (by simp)
    obtain ⟨fk₁, g1, g2, g3, -⟩ := assign_ok h1 h2
    obtain ⟨fk', f1, f2, f3⟩ := assignAll_ok ps fk₁ fun p' hp' => by
      obtain ⟨k1, k2⟩ := h p' (by simp [hp'])
      exact ⟨(g2.has _).2 k1, by rw [g2.2.2.2]; exact k2⟩
    refine ⟨fk', ?_, g2.trans f2, fun t idx hi => ?_⟩
    · unfold FK.assignAll
      rw [g1]
      exact f1
    · rw [f3 t idx (by rw [g2.2.2.2]; exact hi)]
      show contents fk₁ (lastIn ps t) t idx = contents fk ((lastIn ps t).or _) t idx
      cases lastIn ps t with
      | some v => rfl
      | none =>
        show fk₁.entry t idx = _
        rw [g3 t idx hi]
        by_cases e : t = p.1
        · rw [if_pos e, if_pos e]; rfl
        · rw [if_neg e, if_neg e]; rfl

theorem assignAll_append (ps ps' : List (Target × NDArr ℝ)) (fk fk₁ : FK) (h : fk.assignAll ps = (.ok (), fk₁)) : fk.assignAll (ps ++ ps') = fk₁.assignAll ps' := by
  induction ps generalizing fk with
  | nil => cases h; rfl
  | cons p ps ih =>
    show (match fk.assign p.1 p.2 with | .ok fk' => fk'.assignAll (ps ++ ps') | .error e => (.error e, fk)) = _
    unfold FK.assignAll at h
    cases ha : fk.assign p.1 p.2 with
    | error e => rw [ha] at h; cases h
    | ok fk' => rw [ha] at h; exact ih fk' h

theorem lastIn_notMem {T : List Target} {t : Target} (h : t ∉ T) : ∀ vs : List (NDArr ℝ), lastIn (T.zip vs) t = none := by
  induction T with
  | nil => intro vs; rfl
  | cons a T ih =>
    intro vs
    cases vs with
    | nil => rfl
    | cons v vs =>
      show (lastIn (T.zip vs) t).or (if t = a then some v else none) = none
      rw [ih (fun hm => h (by simp [hm])) vs, if_neg (fun e => h (by simp [e]))]
      rfl

theorem lastIn_zip {T : List Target} (hT : T.Nodup) : ∀ (vs : List (NDArr ℝ)) (q : ℕ) (hq : q < T.length), lastIn (T.zip vs) T[q] = vs[q]? := by
  induction T with
  | nil => intro vs q hq; simp at hq
  | cons a T ih =>
    intro vs q hq
    cases vs with
    | nil => rfl
    | cons v vs =>
      rw [List.nodup_cons] at hT
      cases q with
      | zero =>
        show (lastIn (T.zip vs) a).or (if a = a then some v else none) = some v
        rw [lastIn_notMem hT.1, if_pos rfl]
        rfl
      | succ q =>
        have hq : q < T.length := by simpa using hq
        show (lastIn (T.zip vs) T[q]).or (if T[q] = a then some v else none) = vs[q]?
        rw [ih hT.2 vs q hq, if_neg (fun e : T[q] = a => hT.1 (e ▸ List.getElem_mem hq))]
        cases vs[q]? <;> rfl

theorem pairs_last (fk : FK) (s : Setting) {t : Target} (ht : fk.has t) : lastIn (s.pairs fk) t = s.value t := by
  have nd : ∀ (f : ℕ → Target) (n : ℕ), Function.Injective f → ((List.range n).map f).Nodup := fun f n hf => (List.nodup_range).map hf
  have hv : Function.Injective Target.vec := fun a b h => by cases h; rfl
  have hd : Function.Injective Target.diag := fun a b h => by cases h; rfl
  cases s with
  | noise v =>
    cases t with
    | noise => rfl
    | vec q => rfl
    | diag q => rfl
  | vecs vs =>
    cases t with
    | noise => exact lastIn_notMem (by simp) vs
    | vec q =>
      have := lastIn_zip (nd Target.vec fk.coregVecs.length hv) vs q (by rw [List.length_map, List.length_range]; exact ht)
      rw [List.getElem_map, List.getElem_range] at this
      exact this
    | diag q => exact lastIn_notMem (by simp) vs
  | diags vs =>
    cases t with
    | noise => exact lastIn_notMem (by simp) vs
    | vec q => exact lastIn_notMem (by simp) vs
    | diag q =>
      have := lastIn_zip (nd Target.diag fk.coregDiags.length hd) vs q (by rw [List.length_map, List.length_range]; exact ht)
      rw [List.getElem_map, List.getElem_range] at this
      exact this

/-- the values of an assignment are those it loops over -/
theorem mem_settingPairs (fk : FK) (s : Setting) (t : Target) (v : NDArr ℝ) : (t, v) ∈ s.pairs fk ↔ fk.has t ∧ s.value t = some v := by
  have key : ∀ (f : ℕ → Target) (n : ℕ) (vs : List (NDArr ℝ)), (t, v) ∈ ((List.range n).map f).zip vs ↔ ∃ q, q < n ∧ t = f q ∧ vs[q]? = some v := by
    intro f n vs
    rw [List.mem_iff_getElem?]
    constructor
    · rintro ⟨q, hq⟩
      rw [List.getElem?_zip_eq_some] at hq
      obtain ⟨h1, h2⟩ := hq
      rw [List.getElem?_map] at h1
      by_cases hn : q < n
      · rw [List.getElem?_range hn] at h1
        exact ⟨q, hn, (Option.some.inj h1).symm, h2⟩
      · rw [List.getElem?_eq_none (by simpa using hn)] at h1
        cases h1
    · rintro ⟨q, hn, rfl, h2⟩
      refine ⟨q, List.getElem?_zip_eq_some.2 ⟨?_, h2⟩⟩
      rw [List.getElem?_map, List.getElem?_range hn]
      rfl
  cases s with
  | noise w =>
    cases t <;> simp [Setting.pairs, Setting.value, FK.has, eq_comm]
  | vecs vs =>
    show _ ∈ List.zip _ _ ↔ _
    rw [key]
    cases t <;> simp [Setting.value, FK.has]
  | diags vs =>
    show _ ∈ List.zip _ _ ↔ _
    rw [key]
    cases t <;> simp [Setting.value, FK.has]

theorem has_of_index {fk : FK} {t : Target} {idx : List ℕ} (h : IndexOf idx (fk.shapeAt t)) : fk.has t := by
  cases t with
  | noise => trivial
  | vec q =>
    by_contra hn
    have hn : ¬ q < fk.coregVecs.length := hn
    obtain ⟨i, j, -, hi, -⟩ := indexOf_two h
    rw [List.getD_eq_default _ _ (by omega)] at hi
    exact absurd hi (Nat.not_lt_zero i)
  | diag q =>
    by_contra hn
    have hn : ¬ q < fk.coregDiags.length := hn
    obtain ⟨i, -, hi⟩ := indexOf_one h
    rw [List.getD_eq_default _ _ (by omega)] at hi
    exact absurd hi (Nat.not_lt_zero i)

theorem pairs_fit {fk : FK} {s : Setting} (h : s.Fits fk) : ∀ p ∈ s.pairs fk, fk.has p.1 ∧ BroadcastsTo p.2.shape (fk.shapeAt p.1) := by
  rintro ⟨t, v⟩ hp
  obtain ⟨h1, h2⟩ := (mem_settingPairs fk s t v).1 hp
  exact ⟨h1, h t v h1 h2⟩

theorem apply_ok {fk : FK} {s : Setting} (h : s.Fits fk) :
    ∃ fk', fk.apply s = (.ok (), fk') ∧ fk.SameBut fk' ∧ ∀ t idx, IndexOf idx (fk.shapeAt t) → fk'.entry t idx = contents fk (s.value t) t idx := by
  obtain ⟨fk', h1, h2, h3⟩ := assignAll_ok (s.pairs fk) fk (pairs_fit h)
  exact ⟨fk', h1, h2, fun t idx hi => by rw [h3 t idx hi, pairs_last fk s (has_of_index hi)]⟩

theorem FK.SameBut.fits {fk fk' : FK} (h : fk.SameBut fk') {s : Setting} (hs : s.Fits fk) : s.Fits fk' := fun t v ht hv => by
  rw [h.2.2.2]
  exact hs t v ((h.has t).1 ht) hv

theorem applyAll_ok : ∀ (ss : List Setting) (fk : FK), (∀ s ∈ ss, s.Fits fk) →
    ∃ fk', fk.applyAll ss = (.ok (), fk') ∧ fk.SameBut fk' ∧ ∀ t idx, IndexOf idx (fk.shapeAt t) → fk'.entry t idx = contents fk (lastGiven ss t) t idx
  | [], fk, _ => ⟨fk, rfl, FK.SameBut.refl fk, fun _ _ _ => rfl⟩
  | s :: ss, fk, h => by
    obtain ⟨fk₁, g1, g2, g3⟩ := apply_ok (h s (by simp))
    obtain ⟨fk', f1, f2, f3⟩ := applyAll_ok ss fk₁ fun s' hs' => g2.fits (h s' (by simp [hs']))
    refine ⟨fk', ?_, g2.trans f2, fun t idx hi => ?_⟩
    · unfold FK.applyAll
      rw [g1]
      exact f1
    · rw [f3 t idx (by rw [g2.2.2.2]; exact hi)]
      show contents fk₁ (lastGiven ss t) t idx = contents fk ((lastGiven ss t).or _) t idx
      cases lastGiven ss t with
      | some v => rfl
      | none => exact g3 t idx hi

end Verif
